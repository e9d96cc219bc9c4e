import Verif.Lsp.Diagnostics
import Verif.Spec.Outline
/-!
What a diagnostic of the language server has to say about a schema file, and where it has to point.

Places in the file are given by the number of tokens in front of them; the tokens are those of `definitionsItems` (C39).
-/
namespace Mabo.Spec.Diag
open Mabo.Spec Mabo.Spec.Doc
open Mabo.Lsp
open Mabo.Ast

/-! ### How many tokens are in front of something -/

/-- The lists of definitions, with the number of tokens in front of their first definition. -/
inductive ScopeAt (std : Parse.Std) (s : Ast.Schema) : Nat → List Definition → Prop
  | root : ScopeAt std s 0 s.definitions
  | inner {n : Nat} {ds inner : List Definition} {i : Nat} {comment : List String} {name : String} :
      ScopeAt std s n ds → ds[i]? = some (.module comment name inner) →
      ScopeAt std s (n + (definitionsItems std (ds.take i)).length + comment.length + 3) inner

/-- The definitions. -/
def DefAt (std : Parse.Std) (s : Ast.Schema) (n : Nat) (d : Definition) : Prop :=
  ∃ m ds i, ScopeAt std s m ds ∧ ds[i]? = some d ∧ n = m + (definitionsItems std (ds.take i)).length

/-- The comment of a definition. -/
def commentOf : Definition → List String
  | .module c _ _ => c
  | .struct s => s.comment
  | .enum e => e.comment
  | .typeAlias a => a.comment
  | .const c => c.comment
  | .import _ => []

/-- The tokens of a definition in front of the name that it introduces: the comment and the keyword. For an import also the
segments, and the last `::` if there is an element. -/
def nameOffset : Definition → Nat
  | .import ⟨segments, some _⟩ => segments.length + 2
  | .import ⟨segments, none⟩ => segments.length
  | d => (commentOf d).length + 1

/-- The tokens of these elements, each with the comma behind it. -/
def withCommas (xs : List (List Item)) : Nat := (xs.map fun x => x.length + 1).sum

/-- The tokens of the type parameters. -/
def paramTokens : Definition → Nat
  | .struct s => (genericsItems s.generics s.genericsTrailing).length
  | .enum e => (genericsItems e.generics e.genericsTrailing).length
  | .typeAlias a => (genericsItems a.generics a.genericsTrailing).length
  | _ => 0

/-- The type parameters of structs and enums: comment, keyword and name are in front, each has one token and a comma. -/
def ParamAt (std : Parse.Std) (s : Ast.Schema) (n : Nat) (d : Definition) (i : Nat) : Prop :=
  ∃ m, DefAt std s m d ∧ n = m + (commentOf d).length + 2 + 2 * i

/-- The variants of enums: comment, keyword, name, type parameters and `{` are in front. -/
inductive VariantsAt (std : Parse.Std) (s : Ast.Schema) : Nat → List Variant → Prop
  | mk {n : Nat} {e : Enum} : DefAt std s n (.enum e) →
      VariantsAt std s (n + e.comment.length + 2 + paramTokens (.enum e) + 1) e.variants

/-- The fields of structs and variants. -/
inductive FieldsAt (std : Parse.Std) (s : Ast.Schema) : Nat → Fields → Prop
  | struct {n : Nat} {st : Struct} : DefAt std s n (.struct st) →
      FieldsAt std s (n + st.comment.length + 2 + paramTokens (.struct st)) st.fields
  | variant {n : Nat} {vs : List Variant} {i : Nat} {v : Variant} : VariantsAt std s n vs → vs[i]? = some v →
      FieldsAt std s (n + withCommas ((vs.take i).map variantItems) + v.comment.length + 1) v.fields

/-- The types of fields, aliases and constants. -/
inductive TypeAt (std : Parse.Std) (s : Ast.Schema) : Nat → DataType → Prop
  | named {n : Nat} {fs : List NamedField} {tr : Bool} {i : Nat} {f : NamedField} : FieldsAt std s n (.named fs tr) →
      fs[i]? = some f → TypeAt std s (n + 1 + withCommas ((fs.take i).map namedFieldItems) + f.comment.length + 2) f.ty
  | unnamed {n : Nat} {fs : List UnnamedField} {tr : Bool} {i : Nat} {f : UnnamedField} : FieldsAt std s n (.unnamed fs tr) →
      fs[i]? = some f → TypeAt std s (n + 1 + withCommas ((fs.take i).map unnamedFieldItems)) f.ty
  | alias {n : Nat} {a : TypeAlias} : DefAt std s n (.typeAlias a) →
      TypeAt std s (n + a.comment.length + 2 + paramTokens (.typeAlias a) + 1) a.target
  | const {n : Nat} {c : Const} : DefAt std s n (.const c) → TypeAt std s (n + c.comment.length + 3) c.ty

/-! ### Ranges -/

/-- The range covers exactly `count` tokens, behind the first `n` ones. -/
def Covers (enc : Encoding) (places : List Place) (n count : Nat) (range : Position × Position) : Prop :=
  ∃ p q, places[n]? = some p ∧ 0 < count ∧ places[n + count - 1]? = some q ∧
    range = (posOf enc p.before, posOf enc (q.before ++ q.here))

/-- The text consists of blanks. -/
def Blank (t : Text) : Prop := ∀ c ∈ t, c = ' ' ∨ c = '\t' ∨ c = '\r' ∨ c = '\n'

/-- The range covers these tokens and maybe blanks at both ends. -/
def Surrounds (enc : Encoding) (text : Text) (places : List Place) (n count : Nat) (range : Position × Position) : Prop :=
  ∃ p q a x y, places[n]? = some p ∧ 0 < count ∧ places[n + count - 1]? = some q ∧ p.before = a ++ x ∧ Blank x ∧ Blank y ∧
    q.before ++ q.here ++ y <+: text ∧ range = (posOf enc a, posOf enc (q.before ++ q.here ++ y))

/-- Where the id of something with these tokens, of which the first `comment` ones are its comment, is said to be: the id
itself, the last token, if it is written; else the whole thing without its comment. -/
def IdAt (enc : Encoding) (text : Text) (places : List Place) (n : Nat) (items : List Item) (comment : List String)
    (id : Option (BitVec 32)) (range : Position × Position) : Prop :=
  if id.isSome then Covers enc places (n + items.length - 1) 1 range
  else Surrounds enc text places (n + comment.length) (items.length - comment.length) range

/-- The tuple is too small or too large. -/
def tupleText (n : Nat) : Option String :=
  if n = 0 then some "zero elements" else if n = 1 then some "a single element"
  else if 12 < n then some "more than 12 elements" else none

/-! ### The diagnostics -/

section
variable (enc : Encoding) (std : Parse.Std) (focus : String → String) (s : Ast.Schema) (text : Text) (places : List Place)

/-- What can be wrong with a schema: the message, the range it points to, and the range of the first use of what is used
twice. -/
inductive Complaint : (message : String) → (range : Position × Position) → (first : Option (Position × Position)) → Prop
  /-- Two definitions of a scope introduce the same name. -/
  | definitionName {n ds i j d e name range first} : ScopeAt std s n ds → j < i → ds[i]? = some d → ds[j]? = some e →
      introduced d = [name] → introduced e = [name] → ((ds.take i).flatMap introduced).Nodup →
      Covers enc places (n + (definitionsItems std (ds.take i)).length + nameOffset d) 1 range →
      Covers enc places (n + (definitionsItems std (ds.take j)).length + nameOffset e) 1 first →
      Complaint ("duplicate definition name `" ++ name ++ "`") range (some first)
  /-- Two variants of an enum have the same name. -/
  | variantName {n vs i j v w name range first} : VariantsAt std s n vs → Clash (vs.map (·.name)) i j name →
      vs[i]? = some v → vs[j]? = some w →
      Covers enc places (n + withCommas ((vs.take i).map variantItems) + v.comment.length) 1 range →
      Covers enc places (n + withCommas ((vs.take j).map variantItems) + w.comment.length) 1 first →
      Complaint ("duplicate variant name `" ++ name ++ "` in enum") range (some first)
  /-- Two fields have the same name. -/
  | fieldName {n fs tr i j f g name range first} : FieldsAt std s n (.named fs tr) → Clash (fs.map (·.name)) i j name →
      fs[i]? = some f → fs[j]? = some g →
      Covers enc places (n + 1 + withCommas ((fs.take i).map namedFieldItems) + f.comment.length) 1 range →
      Covers enc places (n + 1 + withCommas ((fs.take j).map namedFieldItems) + g.comment.length) 1 first →
      Complaint ("duplicate field name `" ++ name ++ "`") range (some first)
  /-- Two variants of an enum have the same id. -/
  | variantId {n vs ids i j v w range first} {id : BitVec 32} : VariantsAt std s n vs → Assigned (vs.map (·.id)) ids →
      Clash ids i j id → vs[i]? = some v → vs[j]? = some w →
      IdAt enc text places (n + withCommas ((vs.take i).map variantItems)) (variantItems v) v.comment v.id range →
      IdAt enc text places (n + withCommas ((vs.take j).map variantItems)) (variantItems w) w.comment w.id first →
      Complaint ("duplicate ID " ++ Nat.repr id.toNat ++ " in enum variant `" ++ v.name ++ "`, already used in `" ++ w.name ++ "`")
        range (some first)
  /-- Two named fields have the same id. -/
  | namedId {n fs tr ids i j f g range first} {id : BitVec 32} : FieldsAt std s n (.named fs tr) →
      Assigned (fs.map (·.id)) ids → Clash ids i j id → fs[i]? = some f → fs[j]? = some g →
      IdAt enc text places (n + 1 + withCommas ((fs.take i).map namedFieldItems)) (namedFieldItems f) f.comment f.id range →
      IdAt enc text places (n + 1 + withCommas ((fs.take j).map namedFieldItems)) (namedFieldItems g) g.comment g.id first →
      Complaint ("duplicate ID " ++ Nat.repr id.toNat ++ " in field `" ++ f.name ++ "`, already used in `" ++ g.name ++ "`")
        range (some first)
  /-- Two fields without names have the same id; positions count from 1. -/
  | unnamedId {n fs tr ids i j f g range first} {id : BitVec 32} : FieldsAt std s n (.unnamed fs tr) →
      Assigned (fs.map (·.id)) ids → Clash ids i j id → fs[i]? = some f → fs[j]? = some g →
      IdAt enc text places (n + 1 + withCommas ((fs.take i).map unnamedFieldItems)) (unnamedFieldItems f) [] f.id range →
      IdAt enc text places (n + 1 + withCommas ((fs.take j).map unnamedFieldItems)) (unnamedFieldItems g) [] g.id first →
      Complaint ("duplicate ID " ++ Nat.repr id.toNat ++ " in position " ++ Nat.repr (i + 1) ++ ", already used at " ++ Nat.repr (j + 1))
        range (some first)
  /-- Two type parameters have the same name. -/
  | paramName {d i j m n name range first} : ParamAt std s n d i → ParamAt std s m d j → Clash (typeParams d) i j name →
      Covers enc places n 1 range → Covers enc places m 1 first →
      Complaint ("duplicate generic type name `" ++ name ++ "`") range (some first)
  /-- A type parameter is not used. -/
  | paramUnused {d i n name range} : ParamAt std s n d i → (typeParams d)[i]? = some name → ¬ Used d name →
      Covers enc places n 1 range → Complaint ("unused generic type argument `" ++ name ++ "`") range none
  /-- A type contains a tuple (outside `non_zero<..>`) that is too small or too large. -/
  | tuple {n t ts tr amount range} : TypeAt std s n t → Mabo.Spec.Part (.tuple ts tr) t → tupleText ts.length = some amount →
      Covers enc places n (typeItems t).length range →
      Complaint ("tuples with " ++ focus amount ++ " are invalid") range none

/-- The diagnostic is a complaint; the first use, if there is one, is related information in the same file. -/
def Reports {Uri : Type} (file : Uri) (d : Diagnostic Uri) : Prop := ∃ first,
  Complaint enc std focus s text places d.message d.range first ∧
  d.related = (first.map fun r => ((file, r), "first used here")).toList

end

/-- The contract of the iteration of a hash map: the first element is an element, and there is one if the map is not empty. -/
def PickContract {α : Type} (pick : List α → Option α) : Prop :=
  (∀ l a, pick l = some a → a ∈ l) ∧ ∀ l, pick l = none → l = []

/-- The contract of the errors of the parser: the place is in the text. -/
def FailureContract (failure : Text → Text × String) : Prop := ∀ t, (failure t).1 <:+ t

/-! ### In a session -/

/-- The diagnostics that the client shows for a document: those published last. -/
def shown {Uri : Type} [DecidableEq Uri] (ps : List (Published Uri)) (u : Uri) : Option (List (Diagnostic Uri)) :=
  (ps.reverse.find? (·.uri = u)).map (·.diagnostics)

end Mabo.Spec.Diag
