import Verif.Codegen
/-!
The decoders of `crates/mabo/src/buf/decode.rs` and the generated decoders over *chunked* buffers
(`bytes::Buf` implementations such as `Chain` or `VecDeque<Bytes>`), where `chunk()` only gives the first
contiguous piece.

A buffer is the list of its remaining pieces. Everything but the varint readers uses the methods of `Buf` that work
across pieces (`remaining`, `get_u8`, `get_f32`, `copy_to_bytes`, `take`, `advance`); the varint readers look at
`chunk()` only (decode.rs:95-99).
-/
namespace Mabo.Chunked
open Mabo.Buf Mabo.Varint Mabo.Schema Mabo.Codegen

/-- The pieces of a buffer that have not been read yet (empty pieces allowed). -/
abbrev Chunks := List Bytes

/-- `Buf::remaining`. -/
def remaining (c : Chunks) : Nat := c.flatten.length

/-- `Buf::chunk`: the current piece; empty only when nothing remains (contract of `Buf::chunk`). -/
def chunk : Chunks → Bytes
  | [] => []
  | [] :: cs => chunk cs
  | (b :: bs) :: _ => b :: bs

/-- `Buf::advance(n)`. -/
def advance : Nat → Chunks → Chunks
  | _, [] => []
  | n, c :: cs => if n < c.length then c.drop n :: cs else advance (n - c.length) cs

/-- `Buf::take(n)`: the window of the first `n` bytes, still in pieces. -/
def window : Nat → Chunks → Chunks
  | _, [] => []
  | n, c :: cs => if n ≤ c.length then [c.take n] else c :: window (n - c.length) cs

/-- `Buf::copy_to_bytes(n)` / `copy_to_slice`: gathers the first `n` bytes from as many pieces as needed. -/
def gather (n : Nat) (c : Chunks) : Bytes := (window n c).flatten

/-- Outcome of a decoder, like `Buf.Res` but with a chunked remainder. -/
inductive CRes (α : Type) where
  | ok (value : α) (rest : Chunks)
  | err (e : Error)
  | panic
  | hang
deriving DecidableEq, Repr

/-- Sequencing with `?`. -/
def CRes.bind {α β : Type} : CRes α → (α → Chunks → CRes β) → CRes β
  | .ok v r, k => k v r
  | .err e, _ => .err e
  | .panic, _ => .panic
  | .hang, _ => .hang

/-- `Result::map`. -/
def CRes.map {α β : Type} (f : α → β) (r : CRes α) : CRes β := r.bind fun v s => .ok (f v) s

/-- A decoder on chunked buffers. -/
abbrev CDec (α : Type) := Chunks → CRes α

/-- `decode_u8` / `decode_i8`, decode.rs:71-84: `get_u8` reads the first byte, whichever piece it is in. -/
def decU8 : CDec (BitVec 8) := fun c =>
  match chunk c with
  | [] => .err .insufficientData
  | b :: _ => .ok b.toBitVec (advance 1 c)

/-- `decode_bool`, decode.rs:61-64. -/
def decBool : CDec Bool := fun c =>
  match chunk c with
  | [] => .err .insufficientData
  | b :: _ => .ok (b != 0) (advance 1 c)

/-- `decode_uN`, decode.rs:95-99: `varint::decode(r.chunk())`. -/
def decUint (w : Nat) : CDec (BitVec w) := fun c =>
  match decodeU w (chunk c) with
  | none => .err .decodeInt
  | some (v, n) => .ok v (advance n c)

/-- `decode_iN`, decode.rs:95-99. -/
def decSint (w : Nat) : CDec (BitVec w) := fun c =>
  match decodeI w (chunk c) with
  | none => .err .decodeInt
  | some (v, n) => .ok v (advance n c)

/-- `decode_f32`, decode.rs:115-118. -/
def decF32 : CDec (BitVec 32) := fun c =>
  if remaining c < 4 then .err .insufficientData
  else .ok (BitVec.ofNat 32 (beVal (gather 4 c))) (advance 4 c)

/-- `decode_f64`, decode.rs:125-128. -/
def decF64 : CDec (BitVec 64) := fun c =>
  if remaining c < 8 then .err .insufficientData
  else .ok (BitVec.ofNat 64 (beVal (gather 8 c))) (advance 8 c)

/-- Length prologue, as `Buf.decPrefixed`. -/
def decPrefixed {β : Type} (k : Chunks → Chunks → CRes β) : CDec β := fun c =>
  (decUint 64 c).bind fun len c =>
    if remaining c < len.toNat then .err .insufficientData
    else k (window len.toNat c) (advance len.toNat c)

/-- Length prologue with `ensure_not_empty!`, as `Buf.decPrefixedNz`. -/
def decPrefixedNz {β : Type} (k : Chunks → Chunks → CRes β) : CDec β := fun c =>
  (decUint 64 c).bind fun len c =>
    if len = 0#64 then .err .zero
    else if remaining c < len.toNat then .err .insufficientData
    else k (window len.toNat c) (advance len.toNat c)

/-- `decode_bytes_std` / `decode_bytes_bytes`, decode.rs:145-162. -/
def decBytes : CDec Bytes := decPrefixed fun body rest => .ok body.flatten rest

/-- `String::from_utf8(..)`. -/
def toStr (bs : Bytes) : CDec String := fun rest =>
  match fromUtf8 bs with
  | some s => .ok s rest
  | none => .err .nonUtf8

/-- `decode_string`, decode.rs:136-138. -/
def decString : CDec String := fun c => (decBytes c).bind toStr

/-- `while r.has_remaining() { vec.push(decode(&mut r)?) }`, as `Buf.decodeMany`. -/
def decodeMany {α : Type} (d : CDec α) : Nat → CDec (List α)
  | 0 => fun c => if remaining c = 0 then .ok [] [] else .hang
  | n + 1 => fun c =>
    if remaining c = 0 then .ok [] []
    else (d c).bind fun v c => (decodeMany d n c).map (v :: ·)

/-- The loop on the window, then continue behind it. -/
def decWindow {α : Type} (d : CDec α) (body rest : Chunks) : CRes (List α) :=
  (decodeMany d (remaining body) body).bind fun xs _ => .ok xs rest

/-- `decode_vec`, decode.rs:170-186. -/
def decVec {α : Type} (d : CDec α) : CDec (List α) := decPrefixed (decWindow d)

/-- Key, then value (decode.rs:212). -/
def decEntry {κ ν : Type} (dk : CDec κ) (dv : CDec ν) : CDec (κ × ν) := fun c =>
  (dk c).bind fun k c => (dv c).bind fun v c => .ok (k, v) c

/-- `decode_hash_map`, decode.rs:194-216. -/
def decHashMap {κ ν : Type} [DecidableEq κ] (dk : CDec κ) (dv : CDec ν) : CDec (List (κ × ν)) := fun c =>
  (decPrefixed (decWindow (decEntry dk dv)) c).map toMap

/-- `decode_hash_set`, decode.rs:224-241. -/
def decHashSet {α : Type} [DecidableEq α] (d : CDec α) : CDec (List α) := fun c =>
  (decPrefixed (decWindow d) c).map toSet

/-- `decode_option`, decode.rs:249-256. -/
def decOption {α : Type} (d : CDec α) : CDec (Option α) := fun c =>
  (decU8 c).bind fun b c => if b = 1#8 then (d c).map some else .ok none c

/-- Loop of `decode_array`, decode.rs:277-279. -/
def decodeUpTo {α : Type} (d : CDec α) : Nat → CDec (List α)
  | 0 => fun c => .ok [] c
  | n + 1 => fun c =>
    if remaining c = 0 then .ok [] []
    else (d c).bind fun v c => (decodeUpTo d n c).map (v :: ·)

/-- `decode_array`, decode.rs:265-287. -/
def decArray {α : Type} (n : Nat) (d : CDec α) : CDec (List α) :=
  decPrefixed fun body rest =>
    (decodeUpTo d n body).bind fun xs _ => if xs.length = n then .ok xs rest else .panic

/-- `decode_non_zero_{int}`, decode.rs:307-312. -/
def decNonZeroInt {w : Nat} (d : CDec (BitVec w)) : CDec (BitVec w) := fun c =>
  (d c).bind fun v c => if v = 0#w then .err .zero else .ok v c

/-- `NonZero::new(value).unwrap()`. -/
def nzUnwrap {α : Type} (xs : List α) (rest : Chunks) : CRes (List α) :=
  if xs.isEmpty then .panic else .ok xs rest

/-- `decode_non_zero_bytes_std` / `_bytes_bytes`, decode.rs:343-364. -/
def decNonZeroBytes : CDec Bytes := decPrefixedNz fun body rest => nzUnwrap body.flatten rest

/-- `decode_non_zero_string`, decode.rs:330-334. -/
def decNonZeroString : CDec String := fun c =>
  (decNonZeroBytes c).bind fun bs c =>
    match fromUtf8 bs with
    | some s => if s.isEmpty then .panic else .ok s c
    | none => .err .nonUtf8

/-- `decode_non_zero_vec`, decode.rs:373-390. -/
def decNonZeroVec {α : Type} (d : CDec α) : CDec (List α) := fun c =>
  (decPrefixedNz (decWindow d) c).bind nzUnwrap

/-- `decode_non_zero_hash_map`, decode.rs:399-422. -/
def decNonZeroHashMap {κ ν : Type} [DecidableEq κ] (dk : CDec κ) (dv : CDec ν) : CDec (List (κ × ν)) :=
  fun c => (decPrefixedNz (decWindow (decEntry dk dv)) c).bind fun es c => nzUnwrap (toMap es) c

/-- `decode_non_zero_hash_set`, decode.rs:431-449. -/
def decNonZeroHashSet {α : Type} [DecidableEq α] (d : CDec α) : CDec (List α) := fun c =>
  (decPrefixedNz (decWindow d) c).bind fun xs c => nzUnwrap (toSet xs) c

/-- `decode_id`, decode.rs:458-460. -/
def decId : CDec FieldId := fun c =>
  (decUint 32 c).bind fun raw c =>
    match FieldId.fromU32 raw with
    | some id => .ok id c
    | none => .err (.unknownEncoding raw.toNat)

/-- `decode_variant_id`, decode.rs:469-471. -/
def decVariantId : CDec (BitVec 32) := decUint 32

/-- Skipping a varint, decode.rs:482-487: byte by byte with `get_u8`, so across pieces. The first argument is the
number of remaining bytes. -/
def skipVarint : Nat → CDec Unit
  | 0 => fun _ => .err .insufficientData
  | n + 1 => fun c =>
    match chunk c with
    | [] => .err .insufficientData
    | b :: _ => if b &&& 0x80 = 0 then .ok () (advance 1 c) else skipVarint n (advance 1 c)

/-- `ensure_size!(r, n); r.advance(n)`, decode.rs:494-508. -/
def skipFixed (n : Nat) : CDec Unit := fun c =>
  if remaining c < n then .err .insufficientData else .ok () (advance n c)

/-- `decode_skip`, decode.rs:480-510. -/
def decSkip : FieldEncoding → CDec Unit
  | .varint => fun c => skipVarint (remaining c) c
  | .lengthPrefixed => decPrefixed fun _ rest => .ok () rest
  | .fixed1 => skipFixed 1
  | .fixed4 => skipFixed 4
  | .fixed8 => skipFixed 8

/-! ### Generated decoders (as `Codegen`, mabo-build/src/decode.rs) -/

/-- Leaf decoders: mabo-build decode.rs:204-221, 276-277. -/
def decRep : Rep → CDec Val
  | .bool => fun r => (decBool r).map .bool
  | .byte => fun r => (decU8 r).map fun v => .num v.toNat
  | .uint w => fun r => (decUint w r).map fun v => .num v.toNat
  | .sint w => fun r => (decSint w r).map fun v => .num v.toNat
  | .f32 => fun r => (decF32 r).map fun v => .num v.toNat
  | .f64 => fun r => (decF64 r).map fun v => .num v.toNat
  | .str => fun r => (decString r).map .str
  | .bytes => fun r => (decBytes r).map .bytes

/-- Non-zero leaf decoders: mabo-build decode.rs:240-260. -/
def decNzRep : Rep → CDec Val
  | .byte => fun r => (decNonZeroInt decU8 r).map fun v => .num v.toNat
  | .uint w => fun r => (decNonZeroInt (decUint w) r).map fun v => .num v.toNat
  | .sint w => fun r => (decNonZeroInt (decSint w) r).map fun v => .num v.toNat
  | .str => fun r => (decNonZeroString r).map .str
  | .bytes => fun r => (decNonZeroBytes r).map .bytes
  | _ => fun _ => .panic

mutual
/-- `compile_data_type`, mabo-build decode.rs:202-309. -/
def decTy (dext : List String → List Ty → CDec Val) (root : Bool) : Ty → CDec Val
  | .prim p => decRep p.rep
  | .vec t => fun r => (decVec (decTy dext false t) r).map .list
  | .hashMap k v => fun r =>
    (decHashMap (decTy dext false k) (decTy dext false v) r).map fun es => .list (es.map toPair)
  | .hashSet t => fun r => (decHashSet (decTy dext false t) r).map .list
  | .option t => fun r => (decOption (decTy dext false t) r).map fun o =>
      match o with | some v => .some v | none => .none
  | .nonZero (.prim p) => if (Ty.prim p).nzArg then decNzRep p.rep else fun _ => .panic
  | .nonZero (.vec t) => fun r => (decNonZeroVec (decTy dext false t) r).map .list
  | .nonZero (.hashMap k v) => fun r =>
    (decNonZeroHashMap (decTy dext false k) (decTy dext false v) r).map fun es => .list (es.map toPair)
  | .nonZero (.hashSet t) => fun r => (decNonZeroHashSet (decTy dext false t) r).map .list
  | .nonZero _ => fun _ => .panic
  | .tuple ts =>
    if 2 ≤ ts.length ∧ ts.length ≤ 12 then
      if root then fun r => (decUint 64 r).bind fun _ r => (decTuple dext ts r).map .list
      else fun r => (decTuple dext ts r).map .list
    else fun _ => .panic
  | .array t n => fun r => (decArray n (decTy dext false t) r).map .list
  | .ext name args => dext name args
  | .param _ => fun _ => .panic
  | .inst t => decTy dext false t
/-- Tuple elements. -/
def decTuple (dext : List String → List Ty → CDec Val) : List Ty → CDec (List Val)
  | [] => fun r => .ok [] r
  | t :: ts => fun r => (decTy dext false t r).bind fun v r => (decTuple dext ts r).map (v :: ·)
end

/-- The field loop, mabo-build decode.rs:30-37 / 104-111. -/
def fieldLoop (dec : Ty → CDec Val) (fs : List Field) : Nat → List (Option Val) → CDec (List (Option Val))
  | 0, _ => fun _ => .hang
  | n + 1, slots => fun r =>
    (decId r).bind fun id r =>
      if id.value = BitVec.ofNat 32 endMarker then .ok slots r
      else
        match fs.findIdx? (fun f => f.id == id.value) with
        | some i =>
          match fs[i]? with
          | some f => (dec (fieldTy f.ty) r).bind fun v r => fieldLoop dec fs n (slots.set i (some v)) r
          | none => .panic
        | none => (decSkip id.encoding r).bind fun _ r => fieldLoop dec fs n slots r

/-- Struct or variant body, mabo-build decode.rs:24-41 / 97-115. -/
def decFields (dec : Ty → CDec Val) (fs : Fields) : CDec (List Val) := fun r =>
  if fs.kind = .unit then .ok [] r
  else
    (fieldLoop dec fs.fields (remaining r + 1) (fs.fields.map fun _ => none) r).bind fun slots r =>
      match assigns fs.kind fs.fields slots with
      | .ok vs => .ok vs r
      | .error e => .err e

/-- `Decode::decode` of a definition, mabo-build decode.rs:9-117. -/
def decDef (dec : Ty → CDec Val) (args : List Ty) : Def → CDec Val
  | .struct fs => fun r => (decFields dec (fs.subst args) r).map .struct
  | .enum vars => fun r =>
    (decVariantId r).bind fun id r =>
      match vars.findIdx? (fun v => v.id == id) with
      | some i =>
        match vars[i]? with
        | some var => (decFields dec (var.fields.subst args) r).map (.enum i)
        | none => .panic
      | none => .err (.unknownVariant id.toNat)

/-- Decoder of a named type, as `Codegen.decExt` (first argument: nesting bound). -/
def decExt (env : Env) : Nat → List String → List Ty → CDec Val
  | 0, _, _ => fun _ => .hang
  | n + 1, name, args =>
    match env name with
    | some d => decDef (decTy (decExt env n) true) args d
    | none => fun _ => .panic

/-- `T::decode(r)` for a named type and a chunked buffer. -/
def decodeExt (env : Env) (name : List String) (args : List Ty) : CDec Val :=
  fun r => decExt env (remaining r + 1) name args r

end Mabo.Chunked
