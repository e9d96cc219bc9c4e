import Verif.Lsp.Tokens
import Verif.Meta
/-!
Model of `crates/mabo-lsp/src/handlers/hover.rs`, of the request `hover` (`handlers/mod.rs:247-273`), and of the tree
that `wire_size` (`crates/mabo-meta/src/lib.rs`) builds and prints for it.

Parameters: `offset` as in `Lsp/Sync.lean`, `position` as in `Lsp/Tokens.lean`. The `source` back references of the
simplified schema are modelled by walking over both trees at once. Sizes are natural numbers.
-/
namespace Mabo.Lsp
open Mabo.Spanned (Span Name)

/-- `config::Hover`, config.rs:10-15. -/
structure HoverConfig where
  showNextId : Bool := true
  showWireSize : Bool := true

/-- `WireSize`, meta/lib.rs:35-40. -/
inductive Size where
  | mk (label : String) (min : Nat) (max : Option Nat) (inner : List (String × Option Size))

/-- The field `min`. -/
def Size.min : Size → Nat
  | .mk _ m _ _ => m
/-- The field `max`. -/
def Size.max : Size → Option Nat
  | .mk _ _ m _ => m
/-- The field `label`. -/
def Size.label : Size → String
  | .mk l _ _ _ => l

/-- `WireSize::fixed`, meta/lib.rs:43-50. -/
def Size.fixed (label : String) (n : Nat) : Size := .mk label n (some n) []
/-- `WireSize::range`, meta/lib.rs:52-59. -/
def Size.range (label : String) (min max : Nat) : Size := .mk label min (some max) []
/-- `WireSize::min`, meta/lib.rs:61-68. -/
def Size.atLeast (label : String) (min : Nat) : Size := .mk label min none []

/-- The leaves of `wire_size`, meta/lib.rs:98-114,161-162. -/
def sizePrim : Schema.Prim → Size
  | .bool => .fixed "bool" 1
  | .u8 => .fixed "u8" 1
  | .i8 => .fixed "i8" 1
  | .u16 => .range "u16" 1 3
  | .i16 => .range "i16" 1 3
  | .u32 => .range "u32" 1 5
  | .i32 => .range "i32" 1 5
  | .u64 => .range "u64" 1 10
  | .i64 => .range "i64" 1 10
  | .u128 => .range "u128" 1 19
  | .i128 => .range "i128" 1 19
  | .f32 => .fixed "f32" 4
  | .f64 => .fixed "f64" 8
  | .string => .atLeast "string" 1
  | .stringRef => .atLeast "&string" 1
  | .bytes => .atLeast "bytes" 1
  | .bytesRef => .atLeast "&bytes" 1
  | .boxString => .atLeast "box<string>" 1
  | .boxBytes => .atLeast "box<bytes>" 1

/-- The sum of the minima in `wire_size_tuple`, meta/lib.rs:196-200. -/
def sumMin : List (Option Size) → Nat
  | [] => 0
  | s :: ss => (s.elim 0 Size.min) + sumMin ss
/-- The sum of the maxima in `wire_size_tuple`, meta/lib.rs:201-204. -/
def sumMax : List (Option Size) → Option Nat
  | [] => some 0
  | s :: ss =>
    match s.bind Size.max, sumMax ss with
    | some a, some b => some (a + b)
    | _, _ => none

mutual
/-- `wire_size`, meta/lib.rs:96-167, with `wire_size_array`, 169-185, and `wire_size_tuple`, 187-207. -/
def sizeTree : Simplify.Ty → Option Size
  | .prim p => some (sizePrim p)
  | .vec t => some (.mk "vec" 1 none [("length", some (.range "u64" 1 10)), ("element", sizeTree t)])
  | .hashMap k v =>
    some (.mk "hash_map" 1 none [("length", some (.range "u64" 1 10)), ("key", sizeTree k), ("value", sizeTree v)])
  | .hashSet t => some (.mk "hash_set" 1 none [("length", some (.range "u64" 1 10)), ("element", sizeTree t)])
  | .option t => some (.mk "option" 0 (((sizeTree t).bind Size.max).map (1 + ·)) [("value", sizeTree t)])
  | .nonZero t => some (.mk "non_zero" 0 (((sizeTree t).bind Size.max).map (1 + ·)) [("value", sizeTree t)])
  | .array t n =>
    some (.mk "array" (Meta.varintSize n.toNat + ((sizeTree t).elim 0 Size.min) * n.toNat)
      (((sizeTree t).bind Size.max).map fun m => Meta.varintSize n.toNat + m * n.toNat)
      [("length", some (.fixed "u64" (Meta.varintSize n.toNat))), ("element", sizeTree t)])
  | .tuple ts =>
    some (.mk "tuple" (sumMin (sizeTrees ts)) (sumMax (sizeTrees ts)) ((sizeTrees ts).zipIdx.map fun x => (Nat.repr x.2, x.1)))
  | .external _ _ _ => none
/-- For each type. -/
def sizeTrees : List Simplify.Ty → List (Option Size)
  | [] => []
  | t :: ts => sizeTree t :: sizeTrees ts
end

/-- The header of `WireSize::print`, meta/lib.rs:72-78. -/
def printBounds (label : String) (min : Nat) (max : Option Nat) : String :=
  "**" ++ label ++ "** " ++ (match max with
    | some m => if min = m then "`" ++ Nat.repr m ++ "`" else "`" ++ Nat.repr min ++ ".." ++ Nat.repr m ++ "`"
    | none => "`" ++ Nat.repr min ++ "..`")

mutual
/-- `WireSize::print`, meta/lib.rs:71-88. -/
def printSize (indent : Nat) : Size → String
  | .mk label min max inner => printBounds label min max ++ printInner indent inner
/-- Its loop. -/
def printInner (indent : Nat) : List (String × Option Size) → String
  | [] => ""
  | (label, size) :: rest =>
    "\n" ++ String.ofList (List.replicate (indent + 2) ' ') ++ "- " ++ label ++ ": " ++
      printOption (indent + 2) size ++ printInner indent rest
/-- One entry. -/
def printOption (indent : Nat) : Option Size → String
  | some s => printSize indent s
  | none => "_unknown_"
end

/-- `fold_comment`, hover.rs:168-174. -/
def foldComment (lines : List String) : String := lines.foldl (fun acc line => acc ++ line ++ "\n") ""

/-- The line about the next id, hover.rs:71 and 84-88 and 115. -/
def nextIdLine (n : BitVec 32) : String := "- next ID: `" ++ Nat.repr n.toNat ++ "`\n"

/-- `Range::from(span).contains(&position)`. -/
def spanContains (source : Text) (span : Span) (pos : Nat) : Bool :=
  decide (Spanned.offset source span.start ≤ pos ∧ pos < Spanned.offset source span.stop)

/-- `(..contains(&position)).then(|| (text, span)).or_else(rest)`. The text may panic. -/
def hoverName (source : Text) (pos : Nat) (name : Name) (text : Resp String) (rest : Resp (Option (String × Span))) :
    Resp (Option (String × Span)) :=
  if spanContains source name.span pos then text.bind fun t => .ok (some (t, name.span)) else rest

/-- `find_map`. -/
def findMap {α : Type} (visit : α → Resp (Option (String × Span))) : List α → Resp (Option (String × Span))
  | [] => .ok none
  | a :: as => (visit a).bind fun
    | some x => .ok (some x)
    | none => findMap visit as

/-- The text for a struct, hover.rs:63-75, or variant, 109-121. -/
def fieldsText (config : HoverConfig) (checked : Bool) (comment : List String) (fields : Simplify.Fields) : Resp String :=
  if config.showNextId then
    match Meta.nextFieldId checked fields with
    | none => .panic
    | some none => .ok (foldComment comment)
    | some (some n) => .ok (foldComment comment ++ nextIdLine n)
  else .ok (foldComment comment)

/-- The text for an enum, hover.rs:81-91. -/
def variantsText (config : HoverConfig) (checked : Bool) (comment : List String) (vs : List Simplify.Variant) : Resp String :=
  if config.showNextId then
    match Meta.nextVariantId checked vs with
    | none => .panic
    | some n => .ok (foldComment comment ++ nextIdLine n)
  else .ok (foldComment comment)

/-- The text for a field, hover.rs:143-152. -/
def fieldText (config : HoverConfig) (comment : List String) (ty : Simplify.Ty) : String :=
  foldComment comment ++
    (if config.showWireSize then "### Wire size\n\n" ++ printOption 0 (sizeTree ty) else "")

/-- `visit_named_field`, hover.rs:133-156. -/
def hoverField (config : HoverConfig) (source : Text) (pos : Nat) (x : Spanned.NamedField × Simplify.Field) :
    Resp (Option (String × Span)) :=
  hoverName source pos x.1.name (.ok (fieldText config x.2.comment x.2.ty)) (.ok none)

/-- `visit_fields`, hover.rs:123-131. Fields without a name give nothing, 138-140. -/
def hoverFields (config : HoverConfig) (source : Text) (pos : Nat) (f : Spanned.Fields) (g : Simplify.Fields) :
    Resp (Option (String × Span)) :=
  match f with
  | .named d => findMap (hoverField config source pos) (d.inner.values.zip g.fields)
  | .unnamed _ => .ok none
  | .unit => .ok none

/-- `visit_struct`, hover.rs:57-77. -/
def hoverStruct (config : HoverConfig) (checked : Bool) (source : Text) (pos : Nat) (s : Spanned.Struct)
    (t : Simplify.Struct) : Resp (Option (String × Span)) :=
  hoverName source pos s.name (fieldsText config checked t.comment t.fields) (hoverFields config source pos s.fields t.fields)

/-- `visit_variant`, hover.rs:101-121. -/
def hoverVariant (config : HoverConfig) (checked : Bool) (source : Text) (pos : Nat)
    (x : Spanned.Variant × Simplify.Variant) : Resp (Option (String × Span)) :=
  hoverName source pos x.1.name (fieldsText config checked x.2.comment x.2.fields)
    (hoverFields config source pos x.1.fields x.2.fields)

/-- `visit_enum`, hover.rs:79-99. -/
def hoverEnum (config : HoverConfig) (checked : Bool) (source : Text) (pos : Nat) (s : Spanned.Enum) (t : Simplify.Enum) :
    Resp (Option (String × Span)) :=
  hoverName source pos s.name (variantsText config checked t.comment t.variants)
    (findMap (hoverVariant config checked source pos) (s.variants.inner.values.zip t.variants))

mutual
/-- `visit_definition`, hover.rs:28-41, with `visit_module`, 43-55, `visit_alias`, 158-161, and `visit_const`, 163-166. The
last case does not occur: both trees have the same shape. -/
def hoverDefinition (config : HoverConfig) (checked : Bool) (source : Text) (pos : Nat) :
    Spanned.Definition → Simplify.Definition → Resp (Option (String × Span))
  | .module _ _ name _ ds _, .module comment _ es =>
    hoverName source pos name (.ok (foldComment comment)) (hoverDefinitions config checked source pos ds es)
  | .struct s, .struct t => hoverStruct config checked source pos s t
  | .enum s, .enum t => hoverEnum config checked source pos s t
  | .typeAlias a, .typeAlias b => hoverName source pos a.name (.ok (foldComment b.comment)) (.ok none)
  | .const a, .const b => hoverName source pos a.name (.ok (foldComment b.comment)) (.ok none)
  | .import _, .import _ _ => .ok none
  | _, _ => .ok none
/-- The loops over definitions, hover.rs:21-23 and 51-53. -/
def hoverDefinitions (config : HoverConfig) (checked : Bool) (source : Text) (pos : Nat) :
    List Spanned.Definition → List Simplify.Definition → Resp (Option (String × Span))
  | d :: ds, e :: es => (hoverDefinition config checked source pos d e).bind fun
    | some x => .ok (some x)
    | none => hoverDefinitions config checked source pos ds es
  | _, _ => .ok none
end

/-- `visit_schema`, hover.rs:13-26. -/
def hoverSchema (config : HoverConfig) (checked : Bool) (offset : Position → Option Nat) (position : Nat → Option Position)
    (source : Text) (s : Spanned.Schema) (t : Simplify.Schema) (p : Position) :
    Resp (Option (String × (Position × Position))) :=
  match offset p with
  | none => .error
  | some pos => (hoverDefinitions config checked source pos s.definitions t.definitions).bind fun
    | none => .ok none
    | some (text, span) => (getRange position source span).bind fun range => .ok (some (text, range))

/-- `hover`, mod.rs:247-273: `ok none` is an empty response. The schema was simplified when the file was created or
updated (compile.rs:27-31, mod.rs:346-373), which panics where the ids overflow. -/
def hover {Uri : Type} [DecidableEq Uri] (std : Parse.Std) (checked : Bool) (config : HoverConfig)
    (offset : Text → Position → Option Nat) (position : Text → Nat → Option Position) (fs : Files Uri) (u : Uri)
    (p : Position) : Resp (Option (String × (Position × Position))) :=
  match get fs u with
  | none => .ok none
  | some f =>
    match compile std checked f.content with
    | .ok none => .ok none
    | .ok (some s) =>
      match Simplify.simplifySchema checked s.erase with
      | none => .panic
      | some t => hoverSchema config checked (offset f.index) (position f.index) f.content s t p
    | .panic => .panic

end Mabo.Lsp
