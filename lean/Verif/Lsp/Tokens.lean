import Verif.Parser.SpansLemmas
import Verif.Compiler.Validate
import Verif.Lsp.Sync
/-!
Model of `crates/mabo-lsp/src/handlers/semantic_tokens.rs` and of the request `semantic_tokens_full`
(`handlers/mod.rs:295-319`).

Parameter: `position text offset`, the position that `Index::get_range` (index.rs:28-56, crate `line-index`) computes for
both ends of a range; its contract is in `Spec/Tokens.lean`. The visitor's methods are sequences of calls of `add_span`
and have no other effect, so here each one is the list of its calls. Numbers are unbounded; a subtraction that would be
negative is a panic.
-/
namespace Mabo.Lsp
open Mabo.Spanned (Span Name Ty)

/-- Result of a request: a value, an error response, or a panic that ends the server. -/
inductive Resp (α : Type) where
  | ok (a : α)
  | error
  | panic
deriving DecidableEq, Repr

/-- Sequencing (`?`). -/
def Resp.bind {α β : Type} (o : Resp α) (f : α → Resp β) : Resp β := match o with
  | .ok a => f a
  | .error => .error
  | .panic => .panic

/-- `TOKEN_TYPES`, semantic_tokens.rs:28-74: the strings of the legend. -/
def tokenTypes : List String :=
  ["namespace", "type", "enum", "struct", "typeParameter", "variable", "property", "enumMember", "keyword", "comment",
    "number", "boolean", "builtinType", "identifier", "typeAlias", "comma", "colon", "semicolon", "pound", "doubleColon",
    "equal", "brace", "bracket", "parenthesis", "angle"]

/-- `TOKEN_MODIFIERS`, semantic_tokens.rs:91-109. -/
def tokenModifiers : List String := ["declaration", "static", "documentation", "constant"]

/-- `token_type_pos`, semantic_tokens.rs:112-120. -/
def tokenTypePos (ty : String) : Resp Nat :=
  match tokenTypes.findIdx? (· == ty) with
  | some i => .ok i
  | none => .panic

/-- `token_modifier_bitset`, semantic_tokens.rs:122-128. -/
def tokenModifierBitset (modifiers : List String) : Nat :=
  ((tokenModifiers.zipIdx.filterMap fun (tm, i) => if modifiers.contains tm then some i else none).foldl
    (fun acc modifier => acc + (1 <<< modifier)) 0)

/-- `lsp_types::SemanticToken`. -/
structure SemanticToken where
  deltaLine : Nat
  deltaStart : Nat
  length : Nat
  tokenType : Nat
  tokenModifiersBitset : Nat
deriving DecidableEq, Repr

/-- `Visitor`, semantic_tokens.rs:130-134, without the index. -/
structure Visitor where
  tokens : List SemanticToken
  delta : Position

/-- `Visitor::new`, semantic_tokens.rs:137-146. -/
def Visitor.new : Visitor := ⟨[], ⟨0, 0⟩⟩

/-- `Index::get_range`, index.rs:28-56. -/
def getRange (position : Nat → Option Position) (source : Text) (span : Span) : Resp (Position × Position) :=
  match position (Spanned.offset source span.start), position (Spanned.offset source span.stop) with
  | some a, some b => .ok (a, b)
  | _, _ => .error

/-- A subtraction of `u32` numbers. -/
def sub (a b : Nat) : Resp Nat := if b ≤ a then .ok (a - b) else .panic

/-- `lsl`, semantic_tokens.rs:159-170. -/
def lsl (delta start stop : Position) : Resp (Nat × Nat × Nat) :=
  (sub start.line delta.line).bind fun l =>
  (sub start.character (if delta.line = start.line then delta.character else 0)).bind fun c =>
  (sub stop.character start.character).bind fun n => .ok (l, c, n)

/-- A call of `add_span`. -/
structure Call where
  span : Span
  type : String
  modifiers : List String := []
deriving DecidableEq, Repr

/-- `add_span`, semantic_tokens.rs:172-194, with `get_range`, 148-157. -/
def addSpan (position : Nat → Option Position) (source : Text) (v : Visitor) (c : Call) : Resp Visitor :=
  (getRange position source c.span).bind fun range =>
    if range.1.line = range.2.line then
      (lsl v.delta range.1 range.2).bind fun d =>
      (tokenTypePos c.type).bind fun ty =>
        .ok ⟨v.tokens ++ [⟨d.1, d.2.1, d.2.2, ty, tokenModifierBitset c.modifiers⟩], range.1⟩
    else .error

/-- Calls one after the other. -/
def addSpans (position : Nat → Option Position) (source : Text) : Visitor → List Call → Resp Visitor
  | v, [] => .ok v
  | v, c :: cs => (addSpan position source v c).bind fun v => addSpans position source v cs

/-! ### The calls of the visitor -/

/-- `visit_comment`, semantic_tokens.rs:204-210. -/
def visitComment (lines : List Name) : List Call := lines.map fun l => ⟨l.span, "comment", ["documentation"]⟩

/-- The loops over punctuated lists, `for (value, comma) in &list`. -/
def visitList {α : Type} (visit : α → List Call) : List α → List Span → Option Span → List Call
  | [], _, _ => []
  | [a], _, last => visit a ++ (match last with | some c => [⟨c, "comma", []⟩] | none => [])
  | a :: as, c :: cs, last => visit a ++ ⟨c, "comma", []⟩ :: visitList visit as cs last
  | a :: as, [], last => visit a ++ visitList visit as [] last

/-- The path of a reference, semantic_tokens.rs:420-423. -/
def visitPath (path : List (Name × Span)) : List Call :=
  path.flatMap fun x => [⟨x.1.span, "namespace", []⟩, ⟨x.2, "doubleColon", []⟩]

mutual
/-- `visit_type`, semantic_tokens.rs:349-442. -/
def visitType : Ty → List Call
  | .prim _ span => [⟨span, "builtinType", []⟩]
  | .single _ span opening t closing =>
    [⟨span, "builtinType", []⟩, ⟨opening, "angle", []⟩] ++ visitType t ++ [⟨closing, "angle", []⟩]
  | .hashMap span opening k comma v closing =>
    [⟨span, "builtinType", []⟩, ⟨opening, "angle", []⟩] ++ visitType k ++ [⟨comma, "comma", []⟩] ++ visitType v ++
      [⟨closing, "angle", []⟩]
  | .tuple opening ts commas last closing =>
    [⟨opening, "parenthesis", []⟩] ++ visitTypes ts commas last ++ [⟨closing, "parenthesis", []⟩]
  | .array opening t semicolon _ closing =>
    [⟨opening, "bracket", []⟩] ++ visitType t ++ [⟨semicolon, "semicolon", []⟩, ⟨closing, "bracket", []⟩]
  | .external path name angle generics commas last =>
    visitPath path ++ [⟨name.span, "type", []⟩] ++ (match angle with | some a => [⟨a.1, "angle", []⟩] | none => []) ++
      visitTypes generics commas last ++ (match angle with | some a => [⟨a.2, "angle", []⟩] | none => [])
/-- The loops over types. -/
def visitTypes : List Ty → List Span → Option Span → List Call
  | [], _, _ => []
  | [t], _, last => visitType t ++ (match last with | some c => [⟨c, "comma", []⟩] | none => [])
  | t :: ts, c :: cs, last => visitType t ++ ⟨c, "comma", []⟩ :: visitTypes ts cs last
  | t :: ts, [], last => visitType t ++ visitTypes ts [] last
end

/-- `visit_id`, semantic_tokens.rs:312-318. -/
def visitId : Option Spanned.Id → List Call
  | some id => [⟨id.span, "identifier", []⟩]
  | none => []

/-- `visit_named_field`, semantic_tokens.rs:298-305. -/
def visitNamedField (f : Spanned.NamedField) : List Call :=
  visitComment f.comment ++ [⟨f.name.span, "property", ["declaration"]⟩, ⟨f.colon, "colon", []⟩] ++ visitType f.ty ++
    visitId f.id

/-- `visit_unnamed_field`, semantic_tokens.rs:307-310. -/
def visitUnnamedField (f : Spanned.UnnamedField) : List Call := visitType f.ty ++ visitId f.id

/-- `visit_fields`, semantic_tokens.rs:270-296. -/
def visitFields : Spanned.Fields → List Call
  | .named d => [⟨d.opening, "brace", []⟩] ++ visitList visitNamedField d.inner.values d.inner.commas d.inner.last ++
      [⟨d.closing, "brace", []⟩]
  | .unnamed d => [⟨d.opening, "parenthesis", []⟩] ++
      visitList visitUnnamedField d.inner.values d.inner.commas d.inner.last ++ [⟨d.closing, "parenthesis", []⟩]
  | .unit => []

/-- `visit_generics`, semantic_tokens.rs:457-468 (the angles get no token). -/
def visitGenerics : Option (Spanned.Delimited (Spanned.Punctuated Name)) → List Call
  | none => []
  | some d => visitList (fun n : Name => [⟨n.span, "typeParameter", ["declaration"]⟩]) d.inner.values d.inner.commas d.inner.last

/-- `visit_struct`, semantic_tokens.rs:236-242. -/
def visitStruct (s : Spanned.Struct) : List Call :=
  visitComment s.comment ++ [⟨s.keyword, "keyword", []⟩, ⟨s.name.span, "struct", ["declaration"]⟩] ++
    visitGenerics s.generics ++ visitFields s.fields

/-- `visit_variant`, semantic_tokens.rs:261-268. -/
def visitVariant (v : Spanned.Variant) : List Call :=
  visitComment v.comment ++ [⟨v.name.span, "enumMember", ["declaration"]⟩] ++ visitFields v.fields ++ visitId v.id

/-- `visit_enum`, semantic_tokens.rs:244-259. -/
def visitEnum (e : Spanned.Enum) : List Call :=
  visitComment e.comment ++ [⟨e.keyword, "keyword", []⟩, ⟨e.name.span, "enum", ["declaration"]⟩] ++
    visitGenerics e.generics ++ [⟨e.variants.opening, "brace", []⟩] ++
    visitList visitVariant e.variants.inner.values e.variants.inner.commas e.variants.inner.last ++
    [⟨e.variants.closing, "brace", []⟩]

/-- `visit_alias`, semantic_tokens.rs:320-328. -/
def visitAlias (a : Spanned.TypeAlias) : List Call :=
  visitComment a.comment ++ [⟨a.keyword, "keyword", []⟩, ⟨a.name.span, "typeAlias", ["declaration"]⟩] ++
    visitGenerics a.generics ++ [⟨a.equal, "equal", []⟩] ++ visitType a.target ++ [⟨a.semicolon, "semicolon", []⟩]

/-- `visit_literal`, semantic_tokens.rs:444-455. -/
def visitLiteral (l : Ast.Literal) (span : Span) : List Call := match l with
  | .bool _ => [⟨span, "boolean", []⟩]
  | .int _ => [⟨span, "number", []⟩]
  | .float _ => [⟨span, "number", []⟩]
  | .string _ => []
  | .bytes _ => []

/-- `visit_const`, semantic_tokens.rs:330-347. -/
def visitConst (c : Spanned.Const) : List Call :=
  visitComment c.comment ++ [⟨c.keyword, "keyword", []⟩,
    ⟨c.name.span, "variable", ["declaration", "static", "constant"]⟩, ⟨c.colon, "colon", []⟩] ++ visitType c.ty ++
    [⟨c.equal, "equal", []⟩] ++ visitLiteral c.value c.valueSpan ++ [⟨c.semicolon, "semicolon", []⟩]

/-- `visit_import`, semantic_tokens.rs:470-480. -/
def visitImport (i : Spanned.Import) : List Call :=
  [⟨i.keyword, "keyword", []⟩] ++ i.segments.map (fun n => ⟨n.span, "namespace", []⟩) ++
    (match i.element with
    | some e => [⟨e.1, "doubleColon", []⟩, ⟨e.2.span, "type", []⟩]
    | none => [])

mutual
/-- `visit_definition`, semantic_tokens.rs:212-221, and `visit_module`, 223-234. -/
def visitDefinition : Spanned.Definition → List Call
  | .module comment keyword name opening ds closing =>
    visitComment comment ++ [⟨keyword, "keyword", []⟩, ⟨name.span, "namespace", ["declaration"]⟩, ⟨opening, "brace", []⟩] ++
      visitDefinitions ds ++ [⟨closing, "brace", []⟩]
  | .struct s => visitStruct s
  | .enum e => visitEnum e
  | .typeAlias a => visitAlias a
  | .const c => visitConst c
  | .import i => visitImport i
/-- The loops over definitions. -/
def visitDefinitions : List Spanned.Definition → List Call
  | [] => []
  | d :: ds => visitDefinition d ++ visitDefinitions ds
end

/-- `visit_schema`, semantic_tokens.rs:196-202. -/
def visitSchema (position : Nat → Option Position) (source : Text) (s : Spanned.Schema) :
    Resp (List SemanticToken) :=
  (addSpans position source .new (visitDefinitions s.definitions)).bind fun v => .ok v.tokens

/-- `compile`, compile.rs:16-24: the schema of a file, if it is parsed and valid. `none` is a diagnostic; the validator
may also panic. -/
def compile (std : Parse.Std) (checked : Bool) (text : Text) : Outcome (Option Spanned.Schema) :=
  match Spanned.parseSchema std text with
  | none => .ok none
  | some s =>
    match Compiler.validateSchema checked s.erase with
    | .ok => .ok (some s)
    | .err _ => .ok none
    | .panic => .panic

/-- `semantic_tokens_full`, mod.rs:295-319: `ok none` is an empty response. The schema is the one that was compiled from
the content when the file was created or updated (mod.rs:346-373); the positions come from the file's index. -/
def semanticTokens {Uri : Type} [DecidableEq Uri] (std : Parse.Std) (checked : Bool)
    (position : Text → Nat → Option Position) (fs : Files Uri) (u : Uri) : Resp (Option (List SemanticToken)) :=
  match get fs u with
  | none => .ok none
  | some f =>
    match compile std checked f.content with
    | .ok none => .ok none
    | .ok (some s) => (visitSchema (position f.index) f.content s).bind fun ts => .ok (some ts)
    | .panic => .panic

end Mabo.Lsp
