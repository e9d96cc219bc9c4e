import Verif.Parser.Schema
/-!
What the diagnostics for syntax errors say, independent of how the parser makes its errors: what is wrong with a text, at a
place in it, when a message is shown. `Mabo.Parse` says what can be read.
-/
namespace Mabo.Spec.Errors
open Mabo.Parse (Text P Std isSpace isMulti isLower isUpper isDigit)
open Mabo.Ast

/-- No `p` can be read at the start of the text. -/
def Unreadable {α : Type} (p : P α) (s : Text) : Prop := ∀ a r, p s ≠ .ok a r

/-- At the place between `before` and `after`, or at some place before it, a `p` has to be and cannot be read; `start` says where
a `p` has to be: what is before and what is behind that place. -/
def Broken {α : Type} (p : P α) (start : Text → Text → Prop) (before after : Text) : Prop :=
  ∃ u x, before = u ++ x ∧ start u (x ++ after) ∧ Unreadable p (x ++ after)

/-- Such a character, and white space. -/
def After (set : List Char) (before : Text) : Prop := ∃ u c blanks, before = u ++ c :: blanks ∧ c ∈ set ∧
  ∀ d ∈ blanks, isMulti d = true

/-- The text starts with a keyword and a blank. -/
def Opens (keyword : String) (s : Text) : Prop := ∃ c r, s = keyword.toList ++ c :: r ∧ isSpace c = true

/-- A keyword and blanks, at the end of the text. -/
def Behind (keyword : String) (before : Text) : Prop :=
  ∃ u blanks, before = u ++ keyword.toList ++ blanks ∧ blanks ≠ [] ∧ ∀ c ∈ blanks, isSpace c = true

/-- The text does not start with such a character (it may be empty). -/
def NotAt (set : Char → Bool) (after : Text) : Prop := ∀ c, after.head? = some c → set c = false

/-- White space and lines with comments. -/
inductive Blank : Text → Prop
  | nil : Blank []
  | space {c s} : isMulti c = true → Blank s → Blank (c :: s)
  | comment {l s} : '\n' ∉ l → Blank s → Blank ("///".toList ++ l ++ '\n' :: s)

/-- The number that a sign and digits denote. -/
def number (sign : Text) (digits : Text) : Int :=
  if sign = ['-'] then - (Nat.ofDigitChars 10 digits 0 : Int) else Nat.ofDigitChars 10 digits 0

/-- A sign or nothing. -/
def Sign (s : Text) : Prop := s = [] ∨ s = ['+'] ∨ s = ['-']

/-- A number of bytes. -/
def bytes (s : Text) : Nat := (s.map Char.utf8Size).sum

/-- Why a message is shown between `before` and `after`. -/
inductive Explains (std : Std) : (before after : Text) → String → Prop
  /-- After `struct` there is no upper case letter. -/
  | structName {u v} : Behind "struct" u → NotAt isUpper v → Explains std u v "Invalid struct name"
  | enumName {u v} : Behind "enum" u → NotAt isUpper v → Explains std u v "Invalid enum name"
  | aliasName {u v} : Behind "type" u → NotAt isUpper v → Explains std u v "Invalid alias name"
  | constName {u v} : Behind "const" u → NotAt isUpper v → Explains std u v "Invalid const name"
  | moduleName {u v} : Behind "mod" u → NotAt isLower v → Explains std u v "Invalid module name"
  | segmentName {u v} : Behind "use" u → NotAt isLower v → Explains std u v "Invalid segment name"
  /-- After an opening brace (and white space and comments) there is no lower case letter. -/
  | fieldName {u v b} : Blank b → NotAt isLower v → Explains std (u ++ '{' :: b) v "Invalid field name"
  | variantName {u v b} : Blank b → NotAt isUpper v → Explains std (u ++ '{' :: b) v "Invalid variant name"
  /-- After an opening angle bracket (and white space) there is no upper case letter. -/
  | parameterName {u v b} : (∀ c ∈ b, isMulti c = true) → NotAt isUpper v → Explains std (u ++ '<' :: b) v "TODO!"
  /-- A number that is not an `i128`. -/
  | integerRange {u v sign digits rest} : v = sign ++ digits ++ rest → Sign sign → digits ≠ [] →
      (∀ c ∈ digits, isDigit c = true) → NotAt isDigit rest → ¬ (-2 ^ 127 ≤ number sign digits ∧ number sign digits < 2 ^ 127) →
      Explains std u v "Invalid integer literal"
  /-- A sign without digits. -/
  | integerSign {u v sign} : sign ≠ [] → Sign sign → NotAt isDigit v → Explains std (u ++ sign) v "Invalid integer literal"
  /-- A constant without semicolon. -/
  | semicolon {u v} : Broken (Parse.parseConst std) (fun _ => Opens "const") u v → NotAt (· == ';') v →
      Explains std u v "Unexpected character"
  /-- Behind a colon, an equals sign, a parenthesis or a comma there is no type. -/
  | type {u v} : Broken Parse.parseType (fun b _ => After [':', '=', '(', ','] b) u v → Explains std u v "Failed to parse type definition"
  /-- Behind an equals sign there is no literal. -/
  | literal {u v} : Broken (Parse.parseLiteral std) (fun b _ => After ['='] b) u v → Explains std u v "Failed to parse literal value"
  /-- A list of fields, or the end of the text. -/
  | fields {u v} : Broken Parse.parseFields (fun _ s => s = [] ∨ s.head? = some '{' ∨ s.head? = some '(') u v → Explains std u v "Failed to parse fields declaration"
  | generics {u v} : Broken Parse.parseGenerics (fun _ s => s.head? = some '<') u v →
      Explains std u v "Failed to parse generics declaration"
  | enum {u v} : Broken Parse.parseEnum (fun _ => Opens "enum") u v → Explains std u v "Failed to parse enum declaration"
  | const {u v} : Broken (Parse.parseConst std) (fun _ => Opens "const") u v → Explains std u v "Failed to parse const declaration"
  | alias {u v} : Broken Parse.parseAlias (fun _ => Opens "type") u v → Explains std u v "Failed to parse type alias declaration"
  /-- An attribute; the message speaks of a struct. -/
  | attribute {u v} : Broken (Parse.parseAttribute std) (fun _ s => "#[".toList <+: s) u v →
      Explains std u v "Failed to parse struct declaration"
  /-- A module; the message speaks of an id. -/
  | module {u v} : Broken (Parse.parseModule (Parse.parseDefinition std)) (fun _ => Opens "mod") u v →
      Explains std u v "Failed to parse id declaration"
  /-- An import. -/
  | import {u v} : Broken Parse.parseImport (fun _ => Opens "use") u v → NotAt (· == ';') v →
      Explains std u v ("Parser error at offset " ++ Nat.repr (bytes u))
  /-- Neither a definition nor the end of the text. -/
  | nothing {u v w} : (∀ c ∈ w, isMulti c = true) → v ≠ [] → NotAt isMulti v → Unreadable (Parse.parseDefinition std) (w ++ v) →
      Explains std (u ++ w) v ("Parser error at offset " ++ Nat.repr (bytes (u ++ w)))

/-- The definitions at the start of a text that can be read, one after the other, and the text behind them. -/
inductive Reads (std : Std) : Text → List Definition → Text → Prop
  | nil {s} : Reads std s [] s
  | cons {s d r ds t} : Parse.parseDefinition std s = .ok d r → Reads std r ds t → Reads std s (d :: ds) t

/-- The text behind the comment of the schema: comment lines with an empty line behind them. -/
def Header (text rest : Text) : Prop :=
  (∃ c, (do let c ← Parse.ws Parse.parseComments; Parse.chr '\n'; pure c : P (List String)) text = .ok c rest) ∨
  Unreadable (do let c ← Parse.ws Parse.parseComments; Parse.chr '\n'; pure c : P (List String)) text ∧ rest = text

/-- The place of the error is behind all definitions that can be read, in front of the first that cannot. -/
def InFirstBroken (std : Std) (text place : Text) : Prop := ∃ body ds rest,
  Header text body ∧ Reads std body ds rest ∧ Unreadable (Parse.parseDefinition std) rest ∧ place <:+ rest

end Mabo.Spec.Errors
