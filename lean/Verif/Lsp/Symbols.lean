import Verif.Lsp.Tokens
/-!
Model of `crates/mabo-lsp/src/handlers/document_symbols.rs` and of the request `document_symbol`
(`handlers/mod.rs:275-293`). Parameter: `position`, as in `Lsp/Tokens.lean`.
-/
namespace Mabo.Lsp
open Mabo.Spanned (Span Name)

/-- The values of `lsp_types::SymbolKind` that are used. -/
inductive SymbolKind where
  | module | struct | enum | enumMember | property | variable | constant | file
deriving DecidableEq, Repr

/-- `lsp_types::DocumentSymbol`; `detail`, `tags` and `deprecated` are always `None`. -/
inductive Symbol where
  | mk (name : String) (kind : SymbolKind) (range selectionRange : Position × Position) (children : Option (List Symbol))

/-- `create_symbol`, document_symbols.rs:154-174. -/
def createSymbol (name : String) (kind : SymbolKind) (range : Position × Position) (children : List Symbol) : Symbol :=
  .mk name kind range range (if children.isEmpty then none else some children)

/-- The common part of the visits: the range comes first, then the children. -/
def symbolAt (position : Nat → Option Position) (source : Text) (name : String) (kind : SymbolKind) (span : Span)
    (children : Resp (List Symbol)) : Resp Symbol :=
  (getRange position source span).bind fun range => children.bind fun cs => .ok (createSymbol name kind range cs)

/-- `.map(visit).collect::<Result<_>>()`. -/
def collect {α : Type} (visit : α → Resp Symbol) : List α → Resp (List Symbol)
  | [] => .ok []
  | a :: as => (visit a).bind fun s => (collect visit as).bind fun ss => .ok (s :: ss)

/-- `visit_named_field`, document_symbols.rs:87-94. -/
def symbolNamedField (position : Nat → Option Position) (source : Text) (f : Spanned.NamedField) : Resp Symbol :=
  symbolAt position source f.name.value .property f.name.span (.ok [])

/-- `visit_unnamed_field`, document_symbols.rs:96-107. -/
def symbolUnnamedField (position : Nat → Option Position) (source : Text) (x : Spanned.UnnamedField × Nat) : Resp Symbol :=
  symbolAt position source (Nat.repr x.2) .property x.1.span (.ok [])

/-- `visit_fields`, document_symbols.rs:72-85. -/
def symbolFields (position : Nat → Option Position) (source : Text) : Spanned.Fields → Resp (List Symbol)
  | .named d => collect (symbolNamedField position source) d.inner.values
  | .unnamed d => collect (symbolUnnamedField position source) d.inner.values.zipIdx
  | .unit => .ok []

/-- `visit_struct`, document_symbols.rs:42-49. -/
def symbolStruct (position : Nat → Option Position) (source : Text) (s : Spanned.Struct) : Resp Symbol :=
  symbolAt position source s.name.value .struct s.name.span (symbolFields position source s.fields)

/-- `visit_variant`, document_symbols.rs:63-70. -/
def symbolVariant (position : Nat → Option Position) (source : Text) (v : Spanned.Variant) : Resp Symbol :=
  symbolAt position source v.name.value .enumMember v.name.span (symbolFields position source v.fields)

/-- `visit_enum`, document_symbols.rs:51-61. -/
def symbolEnum (position : Nat → Option Position) (source : Text) (e : Spanned.Enum) : Resp Symbol :=
  symbolAt position source e.name.value .enum e.name.span
    (collect (symbolVariant position source) e.variants.inner.values)

/-- `visit_alias`, document_symbols.rs:109-116. -/
def symbolAlias (position : Nat → Option Position) (source : Text) (a : Spanned.TypeAlias) : Resp Symbol :=
  symbolAt position source a.name.value .variable a.name.span (.ok [])

/-- `visit_const`, document_symbols.rs:118-125. -/
def symbolConst (position : Nat → Option Position) (source : Text) (c : Spanned.Const) : Resp Symbol :=
  symbolAt position source c.name.value .constant c.name.span (.ok [])

/-- The loop of `visit_import`, document_symbols.rs:133-143. -/
def importPath : String × Span → List Name → String × Span
  | x, [] => x
  | x, n :: ns => importPath (x.1 ++ "::" ++ n.value, ⟨x.2.start, n.span.stop⟩) ns

/-- `visit_import`, document_symbols.rs:127-151; indexing panics without segments. -/
def symbolImport (position : Nat → Option Position) (source : Text) (i : Spanned.Import) : Resp Symbol :=
  match i.segments with
  | [] => .panic
  | n :: ns =>
    let x := importPath (n.value, n.span) (ns ++ (i.element.map (·.2)).toList)
    symbolAt position source x.1 .file x.2 (.ok [])

mutual
/-- `visit_definition`, document_symbols.rs:19-28, and `visit_module`, 30-40. -/
def symbolDefinition (position : Nat → Option Position) (source : Text) : Spanned.Definition → Resp Symbol
  | .module _ _ name _ ds _ => symbolAt position source name.value .module name.span (symbolDefinitions position source ds)
  | .struct s => symbolStruct position source s
  | .enum e => symbolEnum position source e
  | .typeAlias a => symbolAlias position source a
  | .const c => symbolConst position source c
  | .import i => symbolImport position source i
/-- `visit_schema`, document_symbols.rs:12-17, and the definitions of a module. -/
def symbolDefinitions (position : Nat → Option Position) (source : Text) : List Spanned.Definition → Resp (List Symbol)
  | [] => .ok []
  | d :: ds => (symbolDefinition position source d).bind fun s =>
    (symbolDefinitions position source ds).bind fun ss => .ok (s :: ss)
end

/-- `document_symbol`, mod.rs:275-293: `ok none` is an empty response. -/
def documentSymbol {Uri : Type} [DecidableEq Uri] (std : Parse.Std) (checked : Bool)
    (position : Text → Nat → Option Position) (fs : Files Uri) (u : Uri) : Resp (Option (List Symbol)) :=
  match get fs u with
  | none => .ok none
  | some f =>
    match compile std checked f.content with
    | .ok none => .ok none
    | .ok (some s) => (symbolDefinitions (position f.index) f.content s.definitions).bind fun ss => .ok (some ss)
    | .panic => .panic

end Mabo.Lsp
