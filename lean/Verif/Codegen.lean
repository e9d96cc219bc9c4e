import Verif.Schema
/-!
Meaning of the Rust code generated by `crates/mabo-build/src/{encode,size,decode}.rs`, as
interpreters over the schema: `enc` is the generated `Encode::encode`, `size` the generated
`Size::size`, `decTy`/`decExt` the generated `Decode::decode`.

`todo!` arms of the generator (unsupported `non_zero` argument, tuple arity) make the generator itself
panic; the decoder interpreter maps them to the outcome `panic`.
-/
namespace Mabo.Codegen
open Mabo.Buf Mabo.Varint Mabo.Schema

/-- Field marker of a leaf type, encode.rs:163-228. -/
def primMarker : Prim → FieldEncoding
  | .bool | .u8 | .i8 => .fixed1
  | .u16 | .u32 | .u64 | .u128 | .i16 | .i32 | .i64 | .i128 => .varint
  | .f32 => .fixed4
  | .f64 => .fixed8
  | .string | .stringRef | .boxString | .bytes | .bytesRef | .boxBytes => .lengthPrefixed

/-- First component of `compile_data_type`, encode.rs:155-355: the marker written with the field id.
`External` (named types and generic parameters, 350-353) and nested `Option` (263-269) are marked
length-prefixed. -/
def marker : Ty → FieldEncoding
  | .prim p => primMarker p
  | .nonZero t => marker t
  | .vec _ | .hashMap _ _ | .hashSet _ | .option _ | .tuple _ | .array _ _ | .ext _ _ | .param _
  | .inst _ => .lengthPrefixed

/-- Runtime encoder of a leaf value: encode.rs:163-228 with buf/encode.rs. -/
def encRep : Rep → Val → Bytes
  | .bool, .bool b => encBool b
  | .byte, .num n => encU8 (BitVec.ofNat 8 n)
  | .uint w, .num n => encUint (BitVec.ofNat w n)
  | .sint w, .num n => encSint (BitVec.ofNat w n)
  | .f32, .num n => encF32 (BitVec.ofNat 32 n)
  | .f64, .num n => encF64 (BitVec.ofNat 64 n)
  | .str, .str s => encString s
  | .bytes, .bytes b => encBytes b
  | _, _ => []

/-- Runtime size of a leaf value: mabo-build size.rs:187-206 with buf/size.rs:27-69. -/
def sizeRep : Rep → Val → Nat
  | .bool, .bool _ => 1
  | .byte, .num _ => 1
  | .uint w, .num n => sizeU (BitVec.ofNat w n)
  | .sint w, .num n => sizeI (BitVec.ofNat w n)
  | .f32, .num _ => 4
  | .f64, .num _ => 8
  | .str, .str s => sizeString s
  | .bytes, .bytes b => sizeBytes b
  | _, _ => 0

/-- Runtime decoder of a leaf value: decode.rs:204-221, 276-277. -/
def decRep : Rep → Dec Val
  | .bool => fun r => (decBool r).map .bool
  | .byte => fun r => (decU8 r).map fun v => .num v.toNat
  | .uint w => fun r => (decUint w r).map fun v => .num v.toNat
  | .sint w => fun r => (decSint w r).map fun v => .num v.toNat
  | .f32 => fun r => (decF32 r).map fun v => .num v.toNat
  | .f64 => fun r => (decF64 r).map fun v => .num v.toNat
  | .str => fun r => (decString r).map .str
  | .bytes => fun r => (decBytes r).map .bytes

/-- Non-zero leaf decoders: decode.rs:240-260. -/
def decNzRep : Rep → Dec Val
  | .byte => fun r => (decNonZeroInt decU8 r).map fun v => .num v.toNat
  | .uint w => fun r => (decNonZeroInt (decUint w) r).map fun v => .num v.toNat
  | .sint w => fun r => (decNonZeroInt (decSint w) r).map fun v => .num v.toNat
  | .str => fun r => (decNonZeroString r).map .str
  | .bytes => fun r => (decNonZeroBytes r).map .bytes
  | _ => fun _ => .panic

mutual
/-- Generated `Size::size`: mabo-build size.rs:185-262 for types, 48-72 / 105-168 for definitions.
Tuples are the sum of their elements (244-251), with no length prefix even in field position. -/
def size (env : Env) (t : Ty) (v : Val) : Nat :=
  match t.strip, v with
  | .prim p, v => sizeRep p.rep v
  | .vec t, .list xs => sizeLen xs.length + sizeList env t xs
  | .hashMap k w, .list xs => sizeLen xs.length + sizeEntries env k w xs
  | .hashSet t, .list xs => sizeLen xs.length + sizeList env t xs
  | .option _, .none => 1
  | .option t, .some v => 1 + size env t v
  | .tuple ts, .list xs => sizeTuple env ts xs
  | .array t _, .list xs => sizeLen xs.length + sizeList env t xs
  | .ext name args, .struct vs =>
    match env name with
    | some (.struct fs) =>
      if fs.kind = .unit then 0
      else sizeFields env (fs.subst args).fields vs + endMarkerSize
    | _ => 0
  | .ext name args, .enum i vs =>
    match env name with
    | some (.enum vars) =>
      match vars[i]? with
      | some var =>
        sizeVariantId var.id +
          (if var.fields.kind = .unit then 0
           else sizeFields env (var.fields.subst args).fields vs + endMarkerSize)
      | none => 0
    | _ => 0
  | _, _ => 0
/-- Sum of element sizes. -/
def sizeList (env : Env) (t : Ty) : List Val → Nat
  | [] => 0
  | v :: vs => size env t v + sizeList env t vs
/-- Sum of entry sizes. -/
def sizeEntries (env : Env) (k w : Ty) : List Val → Nat
  | [] => 0
  | .pair a b :: es => (size env k a + size env w b) + sizeEntries env k w es
  | _ :: es => sizeEntries env k w es
/-- Sum over tuple elements, size.rs:244-251. -/
def sizeTuple (env : Env) : List Ty → List Val → Nat
  | t :: ts, v :: vs => size env t v + sizeTuple env ts vs
  | _, _ => 0
/-- Sum over fields, size.rs:52-65 and 148-161. -/
def sizeFields (env : Env) : List Field → List Val → Nat
  | f :: fs, v :: vs =>
    (match f.ty, v with
     | .option t, .some v => sizeFieldId f.id + size env t v
     | .option _, _ => 0
     | t, v => sizeField f.id (size env t v)) + sizeFields env fs vs
  | _, _ => 0
end

mutual
/-- Generated `Encode::encode`: encode.rs:155-355 for types (`root` as there: only tuples look at it),
7-139 for definitions. Non-zero values go through `get()` to the inner encoder with `root = false`;
generic parameters dispatch through the trait, which has no length-prefixed tuples either. -/
def enc (env : Env) (root : Bool) (t : Ty) (v : Val) : Bytes :=
  match t.strip, v with
  | .prim p, v => encRep p.rep v
  | .vec t, .list xs => encLen (sizeList env t xs) ++ encList env t xs
  | .hashMap k w, .list xs => encLen (sizeEntries env k w xs) ++ encEntries env k w xs
  | .hashSet t, .list xs => encLen (sizeList env t xs) ++ encList env t xs
  | .option _, .none => [0]
  | .option t, .some v => 1 :: enc env false t v
  | .tuple ts, .list xs =>
    match root, t with
    | true, .tuple _ => Buf.encTuple (sizeTuple env ts xs) (encTuple env ts xs)
    | _, _ => encTuple env ts xs
  | .array t _, .list xs => encLen (sizeList env t xs) ++ encList env t xs
  | .ext name args, .struct vs =>
    match env name with
    | some (.struct fs) =>
      if fs.kind = .unit then []
      else encFields env (fs.subst args).fields vs ++ encodeU (BitVec.ofNat 32 endMarker)
    | _ => []
  | .ext name args, .enum i vs =>
    match env name with
    | some (.enum vars) =>
      match vars[i]? with
      | some var =>
        encVariantId var.id ++
          (if var.fields.kind = .unit then []
           else encFields env (var.fields.subst args).fields vs ++ encodeU (BitVec.ofNat 32 endMarker))
      | none => []
    | _ => []
  | _, _ => []
/-- Elements one after the other. -/
def encList (env : Env) (t : Ty) : List Val → Bytes
  | [] => []
  | v :: vs => enc env false t v ++ encList env t vs
/-- Entries one after the other, key then value. -/
def encEntries (env : Env) (k w : Ty) : List Val → Bytes
  | [] => []
  | .pair a b :: es => (enc env false k a ++ enc env false w b) ++ encEntries env k w es
  | _ :: es => encEntries env k w es
/-- Tuple elements, encode.rs:322-325. -/
def encTuple (env : Env) : List Ty → List Val → Bytes
  | t :: ts, v :: vs => enc env false t v ++ encTuple env ts vs
  | _, _ => []
/-- Fields in declaration order, encode.rs:119-132: an `Option` field is written only when `Some`, and
then as its inner type; every field is compiled with `root = true`. -/
def encFields (env : Env) : List Field → List Val → Bytes
  | f :: fs, v :: vs =>
    (match f.ty, v with
     | .option t, .some v => encId ⟨f.id, marker t⟩ ++ enc env true t v
     | .option _, _ => []
     | t, v => encField ⟨f.id, marker t⟩ (enc env true t v)) ++ encFields env fs vs
  | _, _ => []
end

/-- A `pair` value from a decoded entry. -/
def toPair (e : Val × Val) : Val := .pair e.1 e.2

mutual
/-- Generated field / element decoder: `compile_data_type`, decode.rs:202-309. `dext` decodes named
types. A tuple in field position first reads its length and drops it (281). -/
def decTy (dext : List String → List Ty → Dec Val) (root : Bool) : Ty → Dec Val
  | .prim p => decRep p.rep
  | .vec t => fun r => (decVec (decTy dext false t) r).map .list
  | .hashMap k v => fun r =>
    (decHashMap (decTy dext false k) (decTy dext false v) r).map fun es => .list (es.map toPair)
  | .hashSet t => fun r => (decHashSet (decTy dext false t) r).map .list
  | .option t => fun r => (decOption (decTy dext false t) r).map fun o =>
      match o with | some v => .some v | none => .none
  | .nonZero (.prim p) => if (Ty.prim p).nzArg then decNzRep p.rep else fun _ => .panic
  | .nonZero (.vec t) => fun r => (decNonZeroVec (decTy dext false t) r).map .list
  | .nonZero (.hashMap k v) => fun r =>
    (decNonZeroHashMap (decTy dext false k) (decTy dext false v) r).map fun es => .list (es.map toPair)
  | .nonZero (.hashSet t) => fun r => (decNonZeroHashSet (decTy dext false t) r).map .list
  | .nonZero _ => fun _ => .panic
  | .tuple ts =>
    if 2 ≤ ts.length ∧ ts.length ≤ 12 then
      if root then fun r => (decUint 64 r).bind fun _ r => (decTuple dext ts r).map .list
      else fun r => (decTuple dext ts r).map .list
    else fun _ => .panic
  | .array t n => fun r => (decArray n (decTy dext false t) r).map .list
  | .ext name args => dext name args
  | .param _ => fun _ => .panic
  | .inst t => decTy dext false t
/-- Tuple elements one after the other. -/
def decTuple (dext : List String → List Ty → Dec Val) : List Ty → Dec (List Val)
  | [] => fun r => .ok [] r
  | t :: ts => fun r => (decTy dext false t r).bind fun v r => (decTuple dext ts r).map (v :: ·)
end

/-- Type the field arm decodes: `if let Type::Option(ty) = &ty { ty } else { ty }`, decode.rs:142. -/
def fieldTy : Ty → Ty
  | .option t => t
  | t => t

/-- `matches!(ty, Type::Option(_))`, decode.rs:128, 161. -/
def isOption : Ty → Bool
  | .option _ => true
  | _ => false

/-- The field loop, decode.rs:30-37 / 104-111, with one slot per field (`let mut name = None`). The
first argument bounds the iterations (each one reads at least one byte, so the number of available
bytes plus one is enough; exhausting it would be an endless loop). Rust `match` takes the first arm with
the id; the end marker comes first. -/
def fieldLoop (dec : Ty → Dec Val) (fs : List Field) : Nat → List (Option Val) → Dec (List (Option Val))
  | 0, _ => fun _ => .hang
  | n + 1, slots => fun r =>
    (decId r).bind fun id r =>
      if id.value = BitVec.ofNat 32 endMarker then .ok slots r
      else
        match fs.findIdx? (fun f => f.id == id.value) with
        | some i =>
          match fs[i]? with
          | some f => (dec (fieldTy f.ty) r).bind fun v r => fieldLoop dec fs n (slots.set i (some v)) r
          | none => .panic
        | none => (decSkip id.encoding r).bind fun _ r => fieldLoop dec fs n slots r

/-- `compile_field_assigns`, decode.rs:150-185: build the value or report the first missing field. -/
def assigns (kind : FieldKind) : List Field → List (Option Val) → Except Error (List Val)
  | f :: fs, s :: ss =>
    match isOption f.ty, s with
    | true, none => (assigns kind fs ss).map (Val.none :: ·)
    | true, some v => (assigns kind fs ss).map (Val.some v :: ·)
    | false, some v => (assigns kind fs ss).map (v :: ·)
    | false, none =>
      .error (.missingField f.id.toNat (if kind = .named then some f.name else none))
  | _, _ => .ok []

/-- Body of a struct or variant decoder, decode.rs:24-41 / 97-115. -/
def decFields (dec : Ty → Dec Val) (fs : Fields) : Dec (List Val) := fun r =>
  if fs.kind = .unit then .ok [] r
  else
    (fieldLoop dec fs.fields (r.length + 1) (fs.fields.map fun _ => none) r).bind fun slots r =>
      match assigns fs.kind fs.fields slots with
      | .ok vs => .ok vs r
      | .error e => .err e

/-- Generated `Decode::decode` of a definition, decode.rs:9-117. An enum takes the first arm whose id
matches. -/
def decDef (dec : Ty → Dec Val) (args : List Ty) : Def → Dec Val
  | .struct fs => fun r => (decFields dec (fs.subst args) r).map .struct
  | .enum vars => fun r =>
    (decVariantId r).bind fun id r =>
      match vars.findIdx? (fun v => v.id == id) with
      | some i =>
        match vars[i]? with
        | some var => (decFields dec (var.fields.subst args) r).map (.enum i)
        | none => .panic
      | none => .err (.unknownVariant id.toNat)

/-- Decoder of a named type. The first argument bounds the nesting depth of named types; since every
nested use is preceded by at least one byte, `remaining + 1` levels always suffice (proved in
`CodegenLemmas`), so exhausting it never happens with the fuel used by `decode`. Unknown names have no
Rust code (`panic`). -/
def decExt (env : Env) : Nat → List String → List Ty → Dec Val
  | 0, _, _ => fun _ => .hang
  | n + 1, name, args =>
    match env name with
    | some d => decDef (decTy (decExt env n) true) args d
    | none => fun _ => .panic

/-- `T::decode(r)` for a named type. The fuel `r.length + 1` is never exhausted and `decodeExt` satisfies
the recursion equation of the generated code (`CodegenLemmas.decodeExt_eq`). -/
def decodeExt (env : Env) (name : List String) (args : List Ty) : Dec Val :=
  fun r => decExt env (r.length + 1) name args r

/-- Decode a value of type `t`: in field position if `root`, else in element position. -/
def decode (env : Env) (root : Bool) (t : Ty) : Dec Val := decTy (decodeExt env) root t

end Mabo.Codegen
