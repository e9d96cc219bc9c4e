import Verif.Compiler.Simplify
import Verif.Parser.Literals
/-!
Model of the Go generator: `crates/mabo-go/src/{lib,definition,encode,decode,size}.rs`, as the text it writes. The result is
`none` where the code panics (`todo!`, `panic!`).

Simplifications: `write!` into a `String` does not fail; which of several panics comes first is left out. The crate `heck`
(0.5) is modelled from its source for ASCII letters, which are the only ones in names of schemas; a package name with other
letters is outside of the model. `Display for f64` and the characters that `{:?}` escapes are parameters (`Std`).
-/
namespace Mabo.Go
open Mabo.Simplify
open Mabo.Schema (Prim FieldKind)
open Mabo.Parse (Text Std printNat printInt printString)

/-! ### Pieces of text -/

/-- `write!` of several pieces. -/
def fmt : List (Option Text) → Option Text
  | [] => some []
  | p :: ps =>
    match p, fmt ps with
    | some a, some b => some (a ++ b)
    | _, _ => none

/-- The fixed text of a format string. -/
def l (x : String) : Option Text := some x.toList

/-- `Indent`, lib.rs:39-54. -/
def tabs (n : Nat) : Text := List.replicate n '\t'

/-! ### `heck` -/

/-- `WordMode` of `heck::transform`. -/
inductive Mode where
  | boundary
  | lower
  | upper
deriving DecidableEq

/-- The loop of `heck::transform` over one alphanumeric part: `cur` is the word so far, reversed. -/
def words (mode : Mode) (cur : Text) : Text → List Text
  | [] => []
  | [c] => [(c :: cur).reverse]
  | c :: next :: rest =>
    let nextMode := if c.isLower then .lower else if c.isUpper then .upper else mode
    if nextMode = .lower ∧ next.isUpper then (c :: cur).reverse :: words .boundary [] (next :: rest)
    else if mode = .upper ∧ c.isUpper ∧ next.isLower then cur.reverse :: words .boundary [c] (next :: rest)
    else words nextMode (c :: cur) (next :: rest)

/-- `str::split` at the characters that are not alphanumeric. -/
def parts (cur : Text) : Text → List Text
  | [] => [cur.reverse]
  | c :: rest => if c.isAlphanum then parts (c :: cur) rest else cur.reverse :: parts [] rest

/-- The words that `heck::transform` finds. -/
def allWords (s : Text) : List Text := ((parts [] s).map (words .boundary [])).flatten

/-- `heck::lowercase`. -/
def lowercase (w : Text) : Text := w.map Char.toLower

/-- `heck::capitalize`. -/
def capitalize : Text → Text
  | [] => []
  | c :: cs => c.toUpper :: lowercase cs

/-- `heck::AsUpperCamelCase`. -/
def upperCamel (s : Text) : Text := ((allWords s).map capitalize).flatten

/-- `heck::AsLowerCamelCase`. -/
def lowerCamel (s : Text) : Text :=
  match allWords s with
  | [] => []
  | w :: ws => lowercase w ++ (ws.map capitalize).flatten

/-- The words with `_` between them. -/
def joinUnderscore : List Text → Text
  | [] => []
  | [w] => w
  | w :: ws => w ++ '_' :: joinUnderscore ws

/-- `heck::AsSnakeCase`. -/
def snake (s : Text) : Text := joinUnderscore ((allWords s).map lowercase)

/-- `heck::AsUpperCamelCase` of a name. -/
def up (s : String) : Option Text := some (upperCamel s.toList)

/-- `heck::AsLowerCamelCase` of a name. -/
def low (s : String) : Option Text := some (lowerCamel s.toList)

/-! ### Types -/

/-- Leaf types in `RenderType`, definition.rs:398-411. -/
def defPrim : Prim → String
  | .bool => "bool"
  | .u8 => "uint8"
  | .u16 => "uint16"
  | .u32 => "uint32"
  | .u64 => "uint64"
  | .u128 | .i128 => "*big.Int"
  | .i8 => "int8"
  | .i16 => "int16"
  | .i32 => "int32"
  | .i64 => "int64"
  | .f32 => "float32"
  | .f64 => "float64"
  | .string | .stringRef | .boxString => "string"
  | .bytes | .bytesRef | .boxBytes => "[]byte"

/-- Leaf types under `Type::NonZero` in `RenderType`, definition.rs:417-430. -/
def defNonZero : Prim → Option Text
  | .u8 => l "mabo.NonZeroU8"
  | .u16 => l "mabo.NonZeroU16"
  | .u32 => l "mabo.NonZeroU32"
  | .u64 => l "mabo.NonZeroU64"
  | .u128 => l "mabo.NonZeroU128"
  | .i8 => l "mabo.NonZeroI8"
  | .i16 => l "mabo.NonZeroI16"
  | .i32 => l "mabo.NonZeroI32"
  | .i64 => l "mabo.NonZeroI64"
  | .i128 => l "mabo.NonZeroI128"
  | .f32 => l "mabo.NonZeroF32"
  | .f64 => l "mabo.NonZeroF64"
  | .string | .stringRef => l "mabo.NonZeroString"
  | .bytes | .bytesRef => l "mabo.NonZeroBytes"
  | .bool | .boxString | .boxBytes => none

/-- Nothing for an empty list, otherwise the elements in brackets. -/
def brackets (empty : Bool) (inner : Option Text) : Option Text :=
  if empty then some [] else fmt [l "[", inner, l "]"]

mutual
/-- `RenderType` (with `Concat` and `RenderGenericTypes`), definition.rs:393-466,492-509,270-287. -/
def defTy : Ty → Option Text
  | .prim p => l (defPrim p)
  | .vec t => fmt [l "[]", defTy t]
  | .hashMap k v => fmt [l "map[", defTy k, l "]", defTy v]
  | .hashSet t => fmt [l "map[", defTy t, l "]struct{}"]
  | .option t => fmt [l "*", defTy t]
  | .nonZero (.prim p) => defNonZero p
  | .nonZero (.vec t) => fmt [l "mabo.NonZeroVec[", defTy t, l "]"]
  | .nonZero (.hashMap k v) => fmt [l "mabo.NonZeroHashMap[", defTy k, l ", ", defTy v, l "]"]
  | .nonZero (.hashSet t) => fmt [l "mabo.NonZeroHashSet[", defTy t, l "]"]
  | .nonZero _ => none
  | .tuple ts => fmt [l "mabo.Tuple", some (printNat ts.length), brackets ts.isEmpty (defTys true ts)]
  | .array t n => fmt [l "[", some (printNat n.toNat), l "]", defTy t]
  | .external path name generics =>
    fmt [match path.getLast? with
      | some p => fmt [some p.toList, l "."]
      | none => some [], up name, brackets generics.isEmpty (defTys true generics)]
/-- The elements, separated by `, `. -/
def defTys (first : Bool) : List Ty → Option Text
  | [] => some []
  | t :: ts => fmt [if first then some [] else l ", ", defTy t, defTys false ts]
end

/-- Leaf types as part of function names in encode.rs:126-144, decode.rs:179-197, size.rs:128-146. -/
def fnPrim : Prim → String
  | .bool => "Bool"
  | .u8 => "U8"
  | .u16 => "U16"
  | .u32 => "U32"
  | .u64 => "U64"
  | .u128 => "U128"
  | .i8 => "I8"
  | .i16 => "I16"
  | .i32 => "I32"
  | .i64 => "I64"
  | .i128 => "I128"
  | .f32 => "F32"
  | .f64 => "F64"
  | .string | .stringRef | .boxString => "String"
  | .bytes | .bytesRef | .boxBytes => "Bytes"

/-- Leaf types with an arm under `Type::NonZero`, encode.rs:245-271, decode.rs:242-254, size.rs:247-273. -/
def nzPrim : Prim → Bool
  | .u8 | .u16 | .u32 | .u64 | .u128 | .i8 | .i16 | .i32 | .i64 | .i128
  | .string | .stringRef | .bytes | .bytesRef => true
  | .bool | .f32 | .f64 | .boxString | .boxBytes => false

/-- Types with an arm under `Type::NonZero` in encode.rs:245-272 and size.rs:247-274. -/
def nzArm : Ty → Bool
  | .prim p => nzPrim p
  | .vec _ | .hashMap _ _ | .hashSet _ => true
  | _ => false

/-- `2..=12`, encode.rs:274, decode.rs:291, size.rs:276. -/
def tupleArm (n : Nat) : Bool := 2 ≤ n && n ≤ 12

/-- `1..=32`, encode.rs:294, decode.rs:315, size.rs:297. -/
def arrayArm (n : Nat) : Bool := 1 ≤ n && n ≤ 32

/-! ### Encoding -/

mutual
/-- `encode::RenderType`, encode.rs:113-317; the integer arms under `NonZero` write the same text as the other arms there. -/
def encTy (ind : Nat) (name : Text) : Ty → Option Text
  | .prim p => fmt [l "buf.Encode", l (fnPrim p), l "(w, ", some name, l ")"]
  | .vec t =>
    fmt [l "buf.EncodeVec[", defTy t, l "](w, ", some name, l ", func(w []byte, v ", defTy t, l ") []byte {\n",
      some (tabs (ind + 1)), l "return ", encTy (ind + 1) ['v'] t, l "\n", some (tabs ind), l "})"]
  | .hashMap k v =>
    fmt [l "buf.EncodeHashMap[", defTy k, l ", ", defTy v, l "](\n",
      some (tabs (ind + 1)), l "w, ", some name, l ",\n",
      some (tabs (ind + 1)), l "func(w []byte, k ", defTy k, l ") []byte {\n",
      some (tabs (ind + 2)), l "return ", encTy (ind + 2) ['k'] k, l "\n",
      some (tabs (ind + 1)), l "},\n",
      some (tabs (ind + 1)), l "func(w []byte, v ", defTy v, l ") []byte {\n",
      some (tabs (ind + 2)), l "return ", encTy (ind + 2) ['v'] v, l "\n",
      some (tabs (ind + 1)), l "},\n", some (tabs ind), l ")"]
  | .hashSet t =>
    fmt [l "buf.EncodeHashSet[", defTy t, l "](w, ", some name, l ", func(w []byte, v ", defTy t, l ") []byte {\n",
      some (tabs (ind + 1)), l "return ", encTy (ind + 1) ['v'] t, l "\n", some (tabs ind), l "})"]
  | .option t =>
    fmt [l "buf.EncodeOption[", defTy t, l "](w, ", some name, l ", func(w []byte, v ", defTy t, l ") []byte {\n",
      some (tabs (ind + 1)), l "return ", encTy (ind + 1) ['v'] t, l "\n", some (tabs ind), l "})"]
  | .nonZero t => if nzArm t then encTy ind (name ++ ".Get()".toList) t else none
  | .tuple ts =>
    if tupleArm ts.length then
      fmt [l "func (w []byte) []byte {\n", encTys ind name 0 ts, some (tabs (ind + 1)), l "return w\n",
        some (tabs ind), l "}(w)"]
    else none
  | .array t n =>
    if arrayArm n.toNat then
      fmt [l "buf.EncodeArray", some (printNat n.toNat), l "[", defTy t, l "](w, ", some name,
        l ", func(w []byte, v ", defTy t, l ") []byte {\n",
        some (tabs (ind + 1)), l "return ", encTy (ind + 1) ['v'] t, l "\n", some (tabs ind), l "})"]
    else none
  | .external _ _ _ => fmt [some name, l ".Encode(w)"]
/-- The elements of a tuple, encode.rs:276-287. -/
def encTys (ind : Nat) (name : Text) (idx : Nat) : List Ty → Option Text
  | [] => some []
  | t :: ts =>
    fmt [some (tabs (ind + 1)), l "w = ", encTy (ind + 1) (name ++ ".F".toList ++ printNat idx) t, l "\n",
      encTys ind name (idx + 1) ts]
end

/-- One field of `encode::RenderFields`, encode.rs:80-107. -/
def encField (f : Field) : Option Text :=
  match f.ty with
  | .option t =>
    fmt [l "\tw = buf.EncodeFieldOption[", defTy t, l "](w, ", some (printNat f.id.toNat), l ", &v.", up f.name,
      l ", func (w []byte, v ", defTy t, l ") []byte {\n\t\treturn ", encTy 2 ['v'] t, l "\n\t})\n"]
  | t =>
    fmt [l "\tw = buf.EncodeField(w, ", some (printNat f.id.toNat), l ", func (w []byte) []byte {\n\t\treturn ",
      encTy 2 ("v.".toList ++ upperCamel f.name.toList) t, l "\n\t})\n"]

/-- `encode::RenderFields`, encode.rs:72-111. -/
def encFields (fs : Fields) : Option Text :=
  if fs.kind = .unit then some []
  else fmt [fmt (fs.fields.map encField), l "\tw = buf.EncodeU32(w, buf.EndMarker)\n"]

/-! ### Decoding -/

/-- `DecodeGenericSingle`, decode.rs:353-378. -/
def decSingle (fn : String) (ind : Nat) (ty inner : Option Text) : Option Text :=
  fmt [l "buf.", l fn, l "[", ty, l "](r, func(r []byte) ([]byte, ", ty, l ", error) {\n",
    some (tabs (ind + 1)), l "return ", inner, l "\n", some (tabs ind), l "})"]
/-- `DecodeGenericPair`, decode.rs:380-432. -/
def decPair (fn : String) (ind : Nat) (kt vt k v : Option Text) : Option Text :=
  fmt [l "buf.", l fn, l "[", kt, l ", ", vt, l "](\n", some (tabs (ind + 1)), l "r,\n",
    some (tabs (ind + 1)), l "func(r []byte) ([]byte, ", kt, l ", error) {\n",
    some (tabs (ind + 2)), l "return ", k, l "\n", some (tabs (ind + 1)), l "},\n",
    some (tabs (ind + 1)), l "func(r []byte) ([]byte, ", vt, l ", error) {\n",
    some (tabs (ind + 2)), l "return ", v, l "\n", some (tabs (ind + 1)), l "},\n", some (tabs ind), l ")"]

mutual
/-- `decode::RenderType` with `DecodeGenericSingle` and `DecodeGenericPair`, decode.rs:171-432. -/
def decTy (ind : Nat) : Ty → Option Text
  | .prim p => fmt [l "buf.Decode", l (fnPrim p), l "(r)"]
  | .vec t => decSingle "DecodeVec" ind (defTy t) (decTy (ind + 1) t)
  | .hashMap k v => decPair "DecodeHashMap" ind (defTy k) (defTy v) (decTy (ind + 2) k) (decTy (ind + 2) v)
  | .hashSet t => decSingle "DecodeHashSet" ind (defTy t) (decTy (ind + 1) t)
  | .option t => decSingle "DecodeOption" ind (defTy t) (decTy (ind + 1) t)
  | .nonZero (.prim p) => if nzPrim p then fmt [l "buf.DecodeNonZero", l (fnPrim p), l "(r)"] else none
  | .nonZero (.vec t) => decSingle "DecodeNonZeroVec" ind (defTy t) (decTy (ind + 1) t)
  | .nonZero (.hashMap k v) =>
    decPair "DecodeNonZeroHashMap" ind (defTy k) (defTy v) (decTy (ind + 2) k) (decTy (ind + 2) v)
  | .nonZero (.hashSet t) => decSingle "DecodeNonZeroHashSet" ind (defTy t) (decTy (ind + 1) t)
  | .nonZero _ => none
  | .tuple ts =>
    if tupleArm ts.length then
      fmt [l "func (r []byte) ([]byte, buf.Tuple", some (printNat ts.length), l ", error) {\n", decTys ind 0 ts,
        some (tabs (ind + 1)), l "return r, tuple, nil\n", some (tabs ind), l "}(r)"]
    else none
  | .array t n =>
    if arrayArm n.toNat then
      fmt [l "buf.DecodeArray", some (printNat n.toNat), l "[", defTy t, l "](r, func(r []byte) ([]byte, ", defTy t,
        l ", error) {\n", some (tabs (ind + 1)), l "return ", decTy (ind + 1) t, l "\n", some (tabs ind), l "})"]
    else none
  | .external path name generics =>
    fmt [l "func(r []byte) ([]byte, ", defTy (.external path name generics), l ", error) {\n",
      some (tabs (ind + 1)), l "var value ", defTy (.external path name generics), l "\n",
      some (tabs (ind + 1)), l "return value.Decode(r)\n", some (tabs ind), l "}(r)\n"]
/-- The elements of a tuple, decode.rs:293-308. -/
def decTys (ind : Nat) (idx : Nat) : List Ty → Option Text
  | [] => some []
  | t :: ts =>
    fmt [some (tabs (ind + 1)), l "r2, value", some (printNat idx), l ", err := ", decTy (ind + 1) t, l "\n",
      some (tabs (ind + 1)), l "if err != nil {\n", some (tabs (ind + 2)), l "return nil, value, err\n",
      some (tabs (ind + 1)), l "}\n", some (tabs (ind + 1)), l "r = r2\n",
      some (tabs (ind + 1)), l "tuple.F", some (printNat idx), l " = value", some (printNat idx), l "\n",
      decTys ind (idx + 1) ts]
end

/-- One field of `RenderFieldVars`, decode.rs:104-108. -/
def foundVar (f : Field) : Option Text := fmt [l "\tfound", up f.name, l " := false\n"]

/-- One field of `RenderFoundChecks`, decode.rs:116-131. -/
def foundCheck (kind : FieldKind) (f : Field) : Option Text :=
  fmt [l "\tif !found", up f.name, l " {\n\t\treturn nil, buf.MissingFieldError{\n\t\t\tID:    ",
    some (printNat f.id.toNat), l ",\n\t\t\tField: \"", if kind = .named then some f.name.toList else some [],
    l "\",\n\t\t}\n\t}\n"]

/-- One field of `decode::RenderFields`, decode.rs:141-165. -/
def decField (f : Field) : Option Text :=
  fmt [l "\t\t\tcase ", some (printNat f.id.toNat), l ":\n\t\t\t\tr2, value, err := ", decTy 4 f.ty,
    l "\n\t\t\t\tif err != nil {\n\t\t\t\t\treturn nil, err\n\t\t\t\t}\n\t\t\t\tr = r2\n\t\t\t\tv.", up f.name,
    l " = value\n\t\t\t\tfound", up f.name, l " = true\n"]

/-! ### Size -/

mutual
/-- `size::RenderType`, size.rs:115-320. -/
def sizeTy (ind : Nat) (name : Text) : Ty → Option Text
  | .prim p => fmt [l "buf.Size", l (fnPrim p), l "(", some name, l ")"]
  | .vec t =>
    fmt [l "buf.SizeVec[", defTy t, l "](", some name, l ", func(v ", defTy t, l ") int {\n",
      some (tabs (ind + 1)), l "return ", sizeTy (ind + 1) ['v'] t, l "\n", some (tabs ind), l "})"]
  | .hashMap k v =>
    fmt [l "buf.SizeHashMap[", defTy k, l ", ", defTy v, l "](\n", some (tabs (ind + 1)), some name, l ",\n",
      some (tabs (ind + 1)), l "func(k ", defTy k, l ") int {\n",
      some (tabs (ind + 2)), l "return ", sizeTy (ind + 2) ['k'] k, l "\n", some (tabs (ind + 1)), l "},\n",
      some (tabs (ind + 1)), l "func(v ", defTy v, l ") int {\n",
      some (tabs (ind + 2)), l "return ", sizeTy (ind + 2) ['v'] v, l "\n", some (tabs (ind + 1)), l "},\n",
      some (tabs ind), l ")"]
  | .hashSet t =>
    fmt [l "buf.SizeHashSet[", defTy t, l "](", some name, l ", func(v ", defTy t, l ") int {\n",
      some (tabs (ind + 1)), l "return ", sizeTy (ind + 1) ['v'] t, l "\n", some (tabs ind), l "})"]
  | .option t =>
    fmt [l "buf.SizeOption[", defTy t, l "](", some name, l ", func(v ", defTy t, l ") int {\n",
      some (tabs (ind + 1)), l "return ", sizeTy (ind + 1) ['v'] t, l "\n", some (tabs ind), l "})"]
  | .nonZero t => if nzArm t then sizeTy ind (name ++ ".Get()".toList) t else none
  | .tuple ts =>
    if tupleArm ts.length then
      fmt [l "func() int {\n", some (tabs (ind + 1)), l "size := 0\n", sizeTys ind name 0 ts,
        some (tabs (ind + 1)), l "return size\n", some (tabs ind), l "}(size)"]
    else none
  | .array t n =>
    if arrayArm n.toNat then
      fmt [l "buf.SizeArray", some (printNat n.toNat), l "[", defTy t, l "](", some name, l ", func(v ", defTy t,
        l ") int {\n", some (tabs (ind + 1)), l "return ", sizeTy (ind + 1) ['v'] t, l "\n", some (tabs ind), l "})"]
    else none
  | .external _ _ _ => fmt [some name, l ".Size()"]
/-- The elements of a tuple, size.rs:279-290. -/
def sizeTys (ind : Nat) (name : Text) (idx : Nat) : List Ty → Option Text
  | [] => some []
  | t :: ts =>
    fmt [some (tabs (ind + 1)), l "size += ", sizeTy (ind + 1) (name ++ ".F".toList ++ printNat idx) t, l "\n",
      sizeTys ind name (idx + 1) ts]
end

/-- One field of `size::RenderFields`, size.rs:82-109. -/
def sizeField (f : Field) : Option Text :=
  match f.ty with
  | .option t =>
    fmt [l "\tsize += buf.SizeFieldOption[", defTy t, l "](", some (printNat f.id.toNat), l ", &v.", up f.name,
      l ", func (v ", defTy t, l ") int {\n\t\treturn ", sizeTy 2 ['v'] t, l "\n\t})\n"]
  | t =>
    fmt [l "\tsize += buf.SizeField(", some (printNat f.id.toNat), l ", func() int {\n\t\treturn ",
      sizeTy 2 ("v.".toList ++ upperCamel f.name.toList) t, l "\n\t})\n"]

/-- `size::RenderFields`, size.rs:74-113. -/
def sizeFields (fs : Fields) : Option Text :=
  if fs.kind = .unit then some []
  else fmt [fmt (fs.fields.map sizeField), l "\tsize += buf.EndMarkerSize\n"]

/-! ### Methods -/

/-- `encode::RenderStruct` and `encode::RenderEnumVariant`, encode.rs:12-70, for the type `recv` with its type parameters;
`ret` is what the method returns. -/
def encMethod (recv : Option Text) (ret : String) (fs : Fields) : Option Text :=
  fmt [l "var _ buf.Encode = (*", recv, l ")(nil)\n\nfunc (v *", recv, l ") Encode(w []byte) []byte {\n",
    encFields fs, l "\treturn ", l ret, l "\n}\n"]

/-- `decode::RenderStruct` and `decode::RenderEnumVariant`, decode.rs:12-98. -/
def decMethod (recv : Option Text) (fs : Fields) : Option Text :=
  fmt [l "var _ buf.Decode = (*", recv, l ")(nil)\n\nfunc (v *", recv, l ") Decode(r []byte) ([]byte, error) {\n",
    fmt (fs.fields.map foundVar),
    l "\n\tfor len(r) > 0 {\n\t\tr2, id, err := buf.DecodeID(r)\n\t\tif err != nil {\n\t\t\treturn nil, err\n\t\t}\n",
    l "\t\tr = r2\n\n\t\tswitch id {\n", fmt (fs.fields.map decField),
    l "\t\t\tcase buf.EndMarker:\n\t\t\t\tbreak\n\t\t}\n\t}\n\n", fmt (fs.fields.map (foundCheck fs.kind)),
    l "\n\treturn r, nil\n}\n"]

/-- `size::RenderStruct` and `size::RenderEnumVariant`, size.rs:12-72. -/
def sizeMethod (recv : Option Text) (fs : Fields) : Option Text :=
  fmt [l "var _ buf.Size = (*", recv, l ")(nil)\n\nfunc (v *", recv, l ") Size() int {\n\tsize := 0\n",
    sizeFields fs, l "\treturn size\n}\n"]

/-! ### Definitions -/

/-- `RenderComment`, definition.rs:377-391. -/
def comment (ind : Nat) (lines : List String) : Option Text :=
  fmt (lines.map fun x => fmt [some (tabs ind), l "// ", some x.toList, l "\n"])

mutual
/-- `visit_external` in `uses_generic`, definition.rs:688-718, with `matches` (:720-722). -/
def mentions (g : String) : Ty → Bool
  | .prim _ => false
  | .vec t | .hashSet t | .option t | .nonZero t | .array t _ => mentions g t
  | .hashMap k v => mentions g k || mentions g v
  | .tuple ts => mentionsAny g ts
  | .external path name generics => path.isEmpty && generics.isEmpty && name == g
/-- On any element. -/
def mentionsAny (g : String) : List Ty → Bool
  | [] => false
  | t :: ts => mentions g t || mentionsAny g ts
end

/-- `uses_generic`, definition.rs:687-728. -/
def usesGeneric (g : String) (fs : Fields) : Bool := fs.fields.any fun f => mentions g f.ty

/-- `", "` between names, each with `suffix`. -/
def nameList (suffix : Text) : List String → Text
  | [] => []
  | [g] => g.toList ++ suffix
  | g :: gs => g.toList ++ suffix ++ [',', ' '] ++ nameList suffix gs

/-- `RenderGenerics` and `RenderGenericNames` with the given names, definition.rs:192-268: nothing for an empty list. -/
def nameBrackets (suffix : Text) (gs : List String) : Option Text :=
  if gs.isEmpty then some [] else some ('[' :: (nameList suffix gs ++ [']']))

/-- `RenderFields`, definition.rs:289-314. -/
def structBody (fs : Fields) : Option Text :=
  if fs.fields.isEmpty then l "struct{}"
  else fmt [l "struct {\n",
    fmt (fs.fields.map fun f => fmt [comment 1 f.comment, l "\t", up f.name, l " ", defTy f.ty, l "\n"]), l "}"]

/-- `RenderParameters`, definition.rs:316-335. -/
def parameters (fs : Fields) : Option Text :=
  fmt [if fs.fields.isEmpty then some [] else l "\n",
    fmt (fs.fields.map fun f => fmt [l "\t", low f.name, l " ", defTy f.ty, l ",\n"])]

/-- `RenderConstructor`, definition.rs:337-358. -/
def constructor (fs : Fields) : Option Text :=
  if fs.fields.isEmpty then l "{}"
  else fmt [l "{\n", fmt (fs.fields.map fun f => fmt [l "\t\t", up f.name, l ": ", low f.name, l ",\n"]), l "\t}"]

/-- `RenderNewFunc`, definition.rs:152-190; `gs` are the type parameters that are left after filtering. -/
def newFunc (name : Option Text) (gs : List String) (fs : Fields) : Option Text :=
  fmt [l "func New", name, nameBrackets " any".toList gs, l "(", parameters fs, l ") ", name, nameBrackets [] gs,
    l " {\n\treturn ", name, nameBrackets [] gs, constructor fs, l "\n}"]

/-- `Definition::Struct` in `render_definition`, definition.rs:57-78, with `RenderStruct` (:131-150). -/
def renderStruct (s : Struct) : Option Text :=
  fmt [comment 0 s.comment, l "type ", up s.name, nameBrackets " any".toList s.generics, l " ", structBody s.fields,
    l "\n\n", newFunc (up s.name) s.generics s.fields, l "\n\n",
    encMethod (fmt [up s.name, nameBrackets [] s.generics]) "w" s.fields, l "\n",
    decMethod (fmt [up s.name, nameBrackets [] s.generics]) s.fields, l "\n",
    sizeMethod (fmt [up s.name, nameBrackets [] s.generics]) s.fields, l "\n"]

/-- `RenderEnumVariant`, definition.rs:615-685. -/
def renderVariant (enumName : String) (generics : List String) (v : Variant) : Option Text :=
  let gs := generics.filter fun g => usesGeneric g v.fields
  let name := fmt [up enumName, l "_", up v.name]
  let recv := fmt [name, nameBrackets [] gs]
  fmt [comment 0 v.comment, l "type ", name, nameBrackets " any".toList gs, l " ", structBody v.fields,
    l "\n\nfunc (v ", recv, l ") sealed() {}\n\n", newFunc name gs v.fields, l "\n\n",
    encMethod recv "nil" v.fields, l "\n", decMethod recv v.fields, l "\n", sizeMethod recv v.fields]

/-- `RenderEnum`, definition.rs:577-613, with the line break of `render_definition` (:79). -/
def renderEnum (e : Enum) : Option Text :=
  fmt [l "type ", up e.name, l "Variant interface {\n\t sealed()\n}\n\n", comment 0 e.comment, l "type ", up e.name,
    l " ", up e.name, l "Variant\n",
    fmt (e.variants.map fun v => fmt [l "\n", renderVariant e.name e.generics v]), l "\n"]

/-- `RenderAlias`, definition.rs:360-375, with the line break of `render_definition` (:80). -/
def renderAlias (a : TypeAlias) : Option Text :=
  fmt [comment 0 a.comment, l "type ", up a.name, l " ", defTy a.target, l "\n\n"]

/-- `RenderConstType`, definition.rs:468-490. -/
def constTy : Ty → Option Text
  | .prim .boxString | .prim .boxBytes => none
  | .prim p => l (defPrim p)
  | _ => none

/-- `kind` in `RenderConst`, definition.rs:515-534. -/
def constKind : Ty → String
  | .prim .u128 | .prim .i128 | .prim .bytes | .prim .bytesRef | .prim .boxString | .prim .boxBytes => "var"
  | .prim _ => "const"
  | _ => "var"

/-- The elements of a byte literal, definition.rs:564-571. -/
def byteList : List UInt8 → Text
  | [] => []
  | [b] => printNat b.toNat
  | b :: bs => printNat b.toNat ++ [',', ' '] ++ byteList bs

/-- `RenderLiteral`, definition.rs:550-575. -/
def literal (std : Std) : Ast.Literal → Text
  | .bool true => "true".toList
  | .bool false => "false".toList
  | .int i => printInt i
  | .float f => std.showFloat f
  | .string s => printString std s
  | .bytes [] => []
  | .bytes bs => "[]byte{".toList ++ byteList bs ++ ['}']

/-- `RenderConst`, definition.rs:511-548. -/
def renderConst (std : Std) (c : Const) : Option Text :=
  fmt [comment 0 c.comment, l (constKind c.ty), l " ", up c.name, l " ", constTy c.ty, l " = ",
    some (literal std c.value), l "\n"]

/-! ### Files -/

/-- `Output`, lib.rs:29-37. -/
inductive Output where
  | mk (name : String) (content : Text) (modules : List Output)

/-- `RenderHeader`, definition.rs:88-99, with the name and version in the manifests of the crate. -/
def header : Option Text := l "// Code generated by mabo-go (v0.1.0). DO NOT EDIT.\n\n"

/-- `RenderPackage`, definition.rs:101-118. -/
def package (name : String) (lines : List String) : Option Text :=
  fmt [comment 0 lines, l "package ", some (snake name.toList), l "\n\n"]

/-- `RenderImports`, definition.rs:120-129. -/
def imports : Option Text :=
  l "import (\n\tmabo \"github.com/dnaka91/mabo-go\"\n\tbuf \"github.com/dnaka91/mabo-go/buf\"\n)\n\n"

mutual
/-- `render_definition`, definition.rs:35-86: what is added to the current file, and the file of a module. -/
def renderDefinition (std : Std) : Definition → Option (Text × Option Output)
  | .module lines name ds => do
    let pre ← fmt [header, package name lines, imports]
    let (body, modules) ← renderDefinitions std ds
    pure ([], some (.mk name (pre ++ body) modules))
  | .struct s => do pure (← renderStruct s, none)
  | .enum e => do pure (← renderEnum e, none)
  | .typeAlias a => do pure (← renderAlias a, none)
  | .const c => do pure (← renderConst std c, none)
  | .import _ _ => some ([], none)
/-- `filter_map` over the definitions. -/
def renderDefinitions (std : Std) : List Definition → Option (Text × List Output)
  | [] => some ([], [])
  | d :: ds => do
    let (t, o) ← renderDefinition std d
    let (ts, os) ← renderDefinitions std ds
    pure (t ++ ts, o.toList ++ os)
end

/-- `render_schema`, definition.rs:12-33. -/
def renderSchema (std : Std) (pkg : String) (s : Schema) : Option Output := do
  let pre ← fmt [header, package pkg [], imports]
  let (body, modules) ← renderDefinitions std s.definitions
  pure (.mk pkg (pre ++ body) modules)

end Mabo.Go
