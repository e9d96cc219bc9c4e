import Verif.Go.Syntax
/-!
What the Go generator writes, as trees: `crates/mabo-go/src/{definition,encode,decode,size}.rs`. The functions have the shape of
those in `Go/Render.lean`; `Go/TreeText.lean` proves that the texts are the same. The result is `none` where the code panics.
-/
namespace Mabo.Go
open Mabo.Simplify
open Mabo.Schema (Prim FieldKind)
open Mabo.Parse (Text Std printNat)

/-- A name in Go. -/
abbrev n (x : String) : Text := x.toList

/-- A type without arguments. -/
def named (x : String) : GTy := .name (n x) []

/-- `[]byte`. -/
def byteSlice : GTy := .slice (named "byte")

/-- Leaf types, definition.rs:398-411. -/
def primTree : Prim → GTy
  | .bool => named "bool"
  | .u8 => named "uint8"
  | .u16 => named "uint16"
  | .u32 => named "uint32"
  | .u64 => named "uint64"
  | .u128 | .i128 => .ptr (.qual (n "big") (n "Int") [])
  | .i8 => named "int8"
  | .i16 => named "int16"
  | .i32 => named "int32"
  | .i64 => named "int64"
  | .f32 => named "float32"
  | .f64 => named "float64"
  | .string | .stringRef | .boxString => named "string"
  | .bytes | .bytesRef | .boxBytes => byteSlice

/-- Leaf types under `non_zero`, definition.rs:417-430. -/
def nzPrimTree : Prim → Option GTy
  | .u8 => some (.qual (n "mabo") (n "NonZeroU8") [])
  | .u16 => some (.qual (n "mabo") (n "NonZeroU16") [])
  | .u32 => some (.qual (n "mabo") (n "NonZeroU32") [])
  | .u64 => some (.qual (n "mabo") (n "NonZeroU64") [])
  | .u128 => some (.qual (n "mabo") (n "NonZeroU128") [])
  | .i8 => some (.qual (n "mabo") (n "NonZeroI8") [])
  | .i16 => some (.qual (n "mabo") (n "NonZeroI16") [])
  | .i32 => some (.qual (n "mabo") (n "NonZeroI32") [])
  | .i64 => some (.qual (n "mabo") (n "NonZeroI64") [])
  | .i128 => some (.qual (n "mabo") (n "NonZeroI128") [])
  | .f32 => some (.qual (n "mabo") (n "NonZeroF32") [])
  | .f64 => some (.qual (n "mabo") (n "NonZeroF64") [])
  | .string | .stringRef => some (.qual (n "mabo") (n "NonZeroString") [])
  | .bytes | .bytesRef => some (.qual (n "mabo") (n "NonZeroBytes") [])
  | .bool | .boxString | .boxBytes => none

mutual
/-- `RenderType`, definition.rs:393-466. -/
def defTree : Ty → Option GTy
  | .prim p => some (primTree p)
  | .vec t => do pure (.slice (← defTree t))
  | .hashMap k v => do pure (.map (← defTree k) (← defTree v))
  | .hashSet t => do pure (.map (← defTree t) .unit)
  | .option t => do pure (.ptr (← defTree t))
  | .nonZero (.prim p) => nzPrimTree p
  | .nonZero (.vec t) => do pure (.qual (n "mabo") (n "NonZeroVec") [← defTree t])
  | .nonZero (.hashMap k v) => do pure (.qual (n "mabo") (n "NonZeroHashMap") [← defTree k, ← defTree v])
  | .nonZero (.hashSet t) => do pure (.qual (n "mabo") (n "NonZeroHashSet") [← defTree t])
  | .nonZero _ => none
  | .tuple ts => do pure (.qual (n "mabo") (n "Tuple" ++ printNat ts.length) (← defTrees ts))
  | .array t size => do pure (.array size.toNat (← defTree t))
  | .external path name generics => do
    let args ← defTrees generics
    match path.getLast? with
    | some p => pure (.qual p.toList (upperCamel name.toList) args)
    | none => pure (.name (upperCamel name.toList) args)
/-- On a list. -/
def defTrees : List Ty → Option (List GTy)
  | [] => some []
  | t :: ts => do pure ((← defTree t) :: (← defTrees ts))
end

/-! ### Expressions -/

/-- `buf.x`. -/
def buf (x : Text) : Expr := .sel (.id (n "buf")) x

/-- A variable. -/
def var (x : String) : Expr := .id (n x)

/-- `return e`. -/
def returns (e : Expr) : List Stmt := [.ret [e]]

/-- `func(w []byte, v T) []byte { return e }`. -/
def encFunc (x : String) (t : GTy) (e : Expr) : Expr :=
  .func false [(n "w", byteSlice), (n x, t)] [byteSlice] (returns e)

mutual
/-- `encode::RenderType` of the value `e`, encode.rs:113-317. -/
def encTree (e : Expr) : Ty → Option Expr
  | .prim p => some (.call (buf (n "Encode" ++ n (fnPrim p))) [var "w", e])
  | .vec t => do
    let g ← defTree t
    pure (.call (.inst (buf (n "EncodeVec")) [g]) [var "w", e, encFunc "v" g (← encTree (var "v") t)])
  | .hashMap k v => do
    let gk ← defTree k
    let gv ← defTree v
    pure (.callLines (.inst (buf (n "EncodeHashMap")) [gk, gv]) [var "w", e]
      [encFunc "k" gk (← encTree (var "k") k), encFunc "v" gv (← encTree (var "v") v)])
  | .hashSet t => do
    let g ← defTree t
    pure (.call (.inst (buf (n "EncodeHashSet")) [g]) [var "w", e, encFunc "v" g (← encTree (var "v") t)])
  | .option t => do
    let g ← defTree t
    pure (.call (.inst (buf (n "EncodeOption")) [g]) [var "w", e, encFunc "v" g (← encTree (var "v") t)])
  | .nonZero t => if nzArm t then encTree (.call (.sel e (n "Get")) []) t else none
  | .tuple ts =>
    if tupleArm ts.length then do
      let body ← encTrees e 0 ts
      pure (.call (.func true [(n "w", byteSlice)] [byteSlice] (body ++ [.ret [var "w"]])) [var "w"])
    else none
  | .array t size =>
    if arrayArm size.toNat then do
      let g ← defTree t
      pure (.call (.inst (buf (n "EncodeArray" ++ printNat size.toNat)) [g])
        [var "w", e, encFunc "v" g (← encTree (var "v") t)])
    else none
  | .external _ _ _ => some (.call (.sel e (n "Encode")) [var "w"])
/-- The elements of a tuple, encode.rs:276-287. -/
def encTrees (e : Expr) (idx : Nat) : List Ty → Option (List Stmt)
  | [] => some []
  | t :: ts => do
    let x ← encTree (.sel e (n "F" ++ printNat idx)) t
    let rest ← encTrees e (idx + 1) ts
    pure (.assign (var "w") x :: rest)
end

/-- `func(v T) int { return e }`. -/
def sizeFunc (x : String) (t : GTy) (e : Expr) : Expr := .func false [(n x, t)] [named "int"] (returns e)

mutual
/-- `size::RenderType` of the value `e`, size.rs:115-320. -/
def sizeTree (e : Expr) : Ty → Option Expr
  | .prim p => some (.call (buf (n "Size" ++ n (fnPrim p))) [e])
  | .vec t => do
    let g ← defTree t
    pure (.call (.inst (buf (n "SizeVec")) [g]) [e, sizeFunc "v" g (← sizeTree (var "v") t)])
  | .hashMap k v => do
    let gk ← defTree k
    let gv ← defTree v
    pure (.callLines (.inst (buf (n "SizeHashMap")) [gk, gv]) [e]
      [sizeFunc "k" gk (← sizeTree (var "k") k), sizeFunc "v" gv (← sizeTree (var "v") v)])
  | .hashSet t => do
    let g ← defTree t
    pure (.call (.inst (buf (n "SizeHashSet")) [g]) [e, sizeFunc "v" g (← sizeTree (var "v") t)])
  | .option t => do
    let g ← defTree t
    pure (.call (.inst (buf (n "SizeOption")) [g]) [e, sizeFunc "v" g (← sizeTree (var "v") t)])
  | .nonZero t => if nzArm t then sizeTree (.call (.sel e (n "Get")) []) t else none
  | .tuple ts =>
    if tupleArm ts.length then do
      let body ← sizeTrees e 0 ts
      pure (.call (.func false [] [named "int"] (.define [n "size"] (.nat 0) :: body ++ [.ret [var "size"]])) [var "size"])
    else none
  | .array t size =>
    if arrayArm size.toNat then do
      let g ← defTree t
      pure (.call (.inst (buf (n "SizeArray" ++ printNat size.toNat)) [g]) [e, sizeFunc "v" g (← sizeTree (var "v") t)])
    else none
  | .external _ _ _ => some (.call (.sel e (n "Size")) [])
/-- The elements of a tuple, size.rs:279-290. -/
def sizeTrees (e : Expr) (idx : Nat) : List Ty → Option (List Stmt)
  | [] => some []
  | t :: ts => do
    let x ← sizeTree (.sel e (n "F" ++ printNat idx)) t
    let rest ← sizeTrees e (idx + 1) ts
    pure (.addAssign (var "size") x :: rest)
end

/-- The results of a decoding function. -/
def decResults (t : GTy) : List GTy := [byteSlice, t, named "error"]

/-- `func(r []byte) ([]byte, T, error) { return e }`. -/
def decFunc (t : GTy) (e : Expr) : Expr := .func false [(n "r", byteSlice)] (decResults t) (returns e)

/-- `DecodeGenericSingle`, decode.rs:353-378. -/
def decSingleTree (fn : Text) (g : Option GTy) (inner : Option Expr) : Option Expr := do
  let g ← g
  pure (.call (.inst (buf fn) [g]) [var "r", decFunc g (← inner)])

/-- `DecodeGenericPair`, decode.rs:380-432. -/
def decPairTree (fn : Text) (gk gv : Option GTy) (k v : Option Expr) : Option Expr := do
  let gk ← gk
  let gv ← gv
  pure (.callLines (.inst (buf fn) [gk, gv]) [var "r"] [decFunc gk (← k), decFunc gv (← v)])

mutual
/-- `decode::RenderType`, decode.rs:171-351. -/
def decTree : Ty → Option Expr
  | .prim p => some (.call (buf (n "Decode" ++ n (fnPrim p))) [var "r"])
  | .vec t => decSingleTree (n "DecodeVec") (defTree t) (decTree t)
  | .hashMap k v => decPairTree (n "DecodeHashMap") (defTree k) (defTree v) (decTree k) (decTree v)
  | .hashSet t => decSingleTree (n "DecodeHashSet") (defTree t) (decTree t)
  | .option t => decSingleTree (n "DecodeOption") (defTree t) (decTree t)
  | .nonZero (.prim p) => if nzPrim p then some (.call (buf (n "DecodeNonZero" ++ n (fnPrim p))) [var "r"]) else none
  | .nonZero (.vec t) => decSingleTree (n "DecodeNonZeroVec") (defTree t) (decTree t)
  | .nonZero (.hashMap k v) => decPairTree (n "DecodeNonZeroHashMap") (defTree k) (defTree v) (decTree k) (decTree v)
  | .nonZero (.hashSet t) => decSingleTree (n "DecodeNonZeroHashSet") (defTree t) (decTree t)
  | .nonZero _ => none
  | .tuple ts =>
    if tupleArm ts.length then do
      let body ← decTrees 0 ts
      pure (.call (.func true [(n "r", byteSlice)] (decResults (.qual (n "buf") (n "Tuple" ++ printNat ts.length) []))
        (body ++ [.ret [var "r", var "tuple", var "nil"]])) [var "r"])
    else none
  | .array t size =>
    if arrayArm size.toNat then
      decSingleTree (n "DecodeArray" ++ printNat size.toNat) (defTree t) (decTree t)
    else none
  | .external path name generics => do
    let g ← defTree (.external path name generics)
    pure (.line (.call (.func false [(n "r", byteSlice)] (decResults g)
      [.varDecl (n "value") g, .ret [.call (.sel (var "value") (n "Decode")) [var "r"]]]) [var "r"]))
/-- The elements of a tuple, decode.rs:293-308. -/
def decTrees (idx : Nat) : List Ty → Option (List Stmt)
  | [] => some []
  | t :: ts => do
    let e ← decTree t
    let rest ← decTrees (idx + 1) ts
    pure (.define [n "r2", n "value" ++ printNat idx, n "err"] e ::
      .ifThen (.ne (var "err") (var "nil")) [.ret [var "nil", var "value", var "err"]] ::
      .assign (var "r") (var "r2") ::
      .assign (.sel (var "tuple") (n "F" ++ printNat idx)) (.id (n "value" ++ printNat idx)) :: rest)
end

/-! ### Fields and methods -/

/-- The Go name of a field. -/
def fieldName (f : Field) : Text := upperCamel f.name.toList

/-- The variable that says whether the field was found. -/
def foundName (f : Field) : Text := n "found" ++ fieldName f

/-- One field of `encode::RenderFields`, encode.rs:80-107. -/
def encFieldTree (f : Field) : Option Stmt :=
  match f.ty with
  | .option t => do
    let g ← defTree t
    pure (.assign (var "w") (.call (.inst (buf (n "EncodeFieldOption")) [g]) [var "w", .nat f.id.toNat,
      .addr (.sel (var "v") (fieldName f)),
      .func true [(n "w", byteSlice), (n "v", g)] [byteSlice] (returns (← encTree (var "v") t))]))
  | t => do
    pure (.assign (var "w") (.call (buf (n "EncodeField")) [var "w", .nat f.id.toNat,
      .func true [(n "w", byteSlice)] [byteSlice] (returns (← encTree (.sel (var "v") (fieldName f)) t))]))

/-- The same for all elements of a list. -/
def allOf {α β : Type} (g : α → Option β) : List α → Option (List β)
  | [] => some []
  | a :: as => do pure ((← g a) :: (← allOf g as))

/-- `encode::RenderFields`, encode.rs:72-111. -/
def encFieldsTree (fs : Fields) : Option (List Stmt) :=
  if fs.kind = .unit then some []
  else do
    let body ← allOf encFieldTree fs.fields
    pure (body ++ [.assign (var "w") (.call (buf (n "EncodeU32")) [var "w", buf (n "EndMarker")])])

/-- One field of `size::RenderFields`, size.rs:82-109. -/
def sizeFieldTree (f : Field) : Option Stmt :=
  match f.ty with
  | .option t => do
    let g ← defTree t
    pure (.addAssign (var "size") (.call (.inst (buf (n "SizeFieldOption")) [g]) [.nat f.id.toNat,
      .addr (.sel (var "v") (fieldName f)), .func true [(n "v", g)] [named "int"] (returns (← sizeTree (var "v") t))]))
  | t => do
    pure (.addAssign (var "size") (.call (buf (n "SizeField")) [.nat f.id.toNat,
      .func false [] [named "int"] (returns (← sizeTree (.sel (var "v") (fieldName f)) t))]))

/-- `size::RenderFields`, size.rs:74-113. -/
def sizeFieldsTree (fs : Fields) : Option (List Stmt) :=
  if fs.kind = .unit then some []
  else do
    let body ← allOf sizeFieldTree fs.fields
    pure (body ++ [.addAssign (var "size") (buf (n "EndMarkerSize"))])

/-- One field of `RenderFieldVars`, decode.rs:104-108. -/
def foundVarTree (f : Field) : Stmt := .define [foundName f] (var "false")

/-- One field of `RenderFoundChecks`, decode.rs:116-131. -/
def foundCheckTree (kind : FieldKind) (f : Field) : Stmt :=
  .ifThen (.not (.id (foundName f))) [.ret [var "nil", .lit (.qual (n "buf") (n "MissingFieldError") [])
    [.entry (n "ID") 3 (.nat f.id.toNat), .entry (n "Field") 0 (.str (if kind = .named then f.name.toList else []))]]]

/-- One field of `decode::RenderFields`, decode.rs:141-165. -/
def decFieldTree (f : Field) : Option Stmt := do
  pure (.case (.nat f.id.toNat) [.define [n "r2", n "value", n "err"] (← decTree f.ty),
    .ifThen (.ne (var "err") (var "nil")) [.ret [var "nil", var "err"]],
    .assign (var "r") (var "r2"),
    .assign (.sel (var "v") (fieldName f)) (var "value"),
    .assign (.id (foundName f)) (var "true")])

/-- The loop of a decoding method, decode.rs:36-48 and 83-95. -/
def decLoopTree (cases : List Stmt) : Stmt :=
  .loop (.gt (.call (var "len") [var "r"]) (.nat 0)) [
    .define [n "r2", n "id", n "err"] (.call (buf (n "DecodeID")) [var "r"]),
    .ifThen (.ne (var "err") (var "nil")) [.ret [var "nil", var "err"]],
    .assign (var "r") (var "r2"), .blank,
    .switch (var "id") (cases ++ [.case (buf (n "EndMarker")) [.brk]])]

/-- The body of a decoding method, decode.rs:35-50 and 82-97. -/
def decBodyTree (fs : Fields) : Option (List Stmt) := do
  let cases ← allOf decFieldTree fs.fields
  pure (fs.fields.map foundVarTree ++ .blank :: decLoopTree cases :: .blank ::
    fs.fields.map (foundCheckTree fs.kind) ++ [.blank, .ret [var "r", var "nil"]])

/-- `encode::RenderStruct` and `encode::RenderEnumVariant`, encode.rs:12-70. -/
def encMethodTree (recv : Text) (gs : List Text) (ret : String) (fs : Fields) : Option (List Decl) := do
  let body ← encFieldsTree fs
  pure [.implements (.qual (n "buf") (n "Encode") []) recv gs, .blank,
    .method true recv gs (n "Encode") [(n "w", byteSlice)] [byteSlice] (body ++ [.ret [var ret]])]

/-- `decode::RenderStruct` and `decode::RenderEnumVariant`, decode.rs:12-98. -/
def decMethodTree (recv : Text) (gs : List Text) (fs : Fields) : Option (List Decl) := do
  let body ← decBodyTree fs
  pure [.implements (.qual (n "buf") (n "Decode") []) recv gs, .blank,
    .method true recv gs (n "Decode") [(n "r", byteSlice)] [byteSlice, named "error"] body]

/-- `size::RenderStruct` and `size::RenderEnumVariant`, size.rs:12-72. -/
def sizeMethodTree (recv : Text) (gs : List Text) (fs : Fields) : Option (List Decl) := do
  let body ← sizeFieldsTree fs
  pure [.implements (.qual (n "buf") (n "Size") []) recv gs, .blank,
    .method true recv gs (n "Size") [] [named "int"] (.define [n "size"] (.nat 0) :: body ++ [.ret [var "size"]])]

/-! ### Definitions -/

/-- `RenderFields`, definition.rs:289-314. -/
def structTree (fs : Fields) : Option TypeBody := do
  pure (.struct (← allOf (fun f => do pure ⟨f.comment, fieldName f, ← defTree f.ty⟩) fs.fields))

/-- The name of a parameter of a constructor. -/
def paramName (f : Field) : Text := lowerCamel f.name.toList

/-- A type with its own parameters as arguments. -/
def selfType (name : Text) (gs : List Text) : GTy := .name name (gs.map fun g => .name g [])

/-- `RenderNewFunc`, definition.rs:152-190. -/
def newTree (name : Text) (gs : List Text) (fs : Fields) : Option Decl := do
  let ps ← allOf (fun f => do pure (paramName f, ← defTree f.ty)) fs.fields
  pure (.func (n "New" ++ name) gs ps (selfType name gs)
    [.ret [.lit (selfType name gs) (fs.fields.map fun f => .entry (fieldName f) 0 (.id (paramName f)))]])

/-- `Definition::Struct` in `render_definition`, definition.rs:57-78. -/
def structDecls (s : Struct) : Option (List Decl) := do
  let name := upperCamel s.name.toList
  let gs := s.generics.map String.toList
  let body ← structTree s.fields
  let new ← newTree name gs s.fields
  let enc ← encMethodTree name gs "w" s.fields
  let dec ← decMethodTree name gs s.fields
  let size ← sizeMethodTree name gs s.fields
  pure ([.type s.comment name gs body, .blank, new, .blank] ++ enc ++ [.blank] ++ dec ++ [.blank] ++ size ++ [.blank])

/-- `RenderEnumVariant`, definition.rs:615-685. -/
def variantDecls (enumName : String) (generics : List String) (v : Variant) : Option (List Decl) := do
  let gs := (generics.filter fun g => usesGeneric g v.fields).map String.toList
  let name := upperCamel enumName.toList ++ ['_'] ++ upperCamel v.name.toList
  let body ← structTree v.fields
  let new ← newTree name gs v.fields
  let enc ← encMethodTree name gs "nil" v.fields
  let dec ← decMethodTree name gs v.fields
  let size ← sizeMethodTree name gs v.fields
  pure ([.blank, .type v.comment name gs body, .blank, .method false name gs (n "sealed") [] [] [], .blank, new, .blank] ++
    enc ++ [.blank] ++ dec ++ [.blank] ++ size)

/-- `RenderEnum`, definition.rs:577-613. -/
def enumDecls (e : Enum) : Option (List Decl) := do
  let name := upperCamel e.name.toList
  let vs ← allOf (variantDecls e.name e.generics) e.variants
  pure ([.type [] (name ++ n "Variant") [] (.interface (n "sealed")), .blank,
    .type e.comment name [] (.type (.name (name ++ n "Variant") []))] ++ vs.flatten ++ [.blank])

/-- `RenderAlias`, definition.rs:360-375. -/
def aliasDecls (a : TypeAlias) : Option (List Decl) := do
  pure [.type a.comment (upperCamel a.name.toList) [] (.type (← defTree a.target)), .blank]

/-- `RenderConstType`, definition.rs:468-490. -/
def constTree : Ty → Option GTy
  | .prim .boxString | .prim .boxBytes => none
  | .prim p => some (primTree p)
  | _ => none

/-- `RenderConst`, definition.rs:511-548. -/
def constDecls (c : Const) : Option (List Decl) := do
  pure [.const c.comment (constKind c.ty == "var") (upperCamel c.name.toList) (← constTree c.ty) c.value]

/-! ### Files -/

/-- `RenderImports`, definition.rs:120-129. -/
def importTree : List (Text × Text) :=
  [(n "mabo", n "github.com/dnaka91/mabo-go"), (n "buf", n "github.com/dnaka91/mabo-go/buf")]

/-- What the definitions of one file declare: all but modules and imports, `render_definition`, definition.rs:35-86. -/
def declsOf : List Definition → Option (List Decl)
  | [] => some []
  | d :: ds => do
    let here ← match d with
      | .struct s => structDecls s
      | .enum e => enumDecls e
      | .typeAlias a => aliasDecls a
      | .const c => constDecls c
      | .module _ _ _ | .import _ _ => some []
    pure (here ++ (← declsOf ds))

/-- The file for a schema or module, definition.rs:12-33 and 37-56. -/
def fileOf (name : String) (comment : List String) (ds : List Definition) : Option File := do
  pure ⟨comment, snake name.toList, importTree, ← declsOf ds⟩

end Mabo.Go
