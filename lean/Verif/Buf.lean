import Verif.Varint
/-!
Model of `crates/mabo/src/lib.rs` (identifiers, non-zero containers) and
`crates/mabo/src/buf/{encode,decode,size}.rs` over contiguous buffers.

Simplifications (all definitions): an encoder is the list of bytes it appends; a decoder is a function
from the remaining bytes to an outcome; `usize` has 64 bits; sums of sizes are natural numbers that are
cut to 64 bits where the code converts them to `u64`; the position of the buffer after an error is not
tracked; `Cow`, `Rc`, `Arc`, `Box` wrappers are transparent.
-/
namespace Mabo.Buf
open Mabo.Varint

abbrev Bytes := List UInt8

/-- `Error`, buf/decode.rs:16-43 (`DecodeInt`/`NonUtf8` payloads dropped, ids as naturals). -/
inductive Error where
  | insufficientData
  | decodeInt
  | nonUtf8
  | missingField (id : Nat) (name : Option String)
  | unknownVariant (id : Nat)
  | unknownEncoding (raw : Nat)
  | zero
deriving DecidableEq, Repr

/-- Outcome of a decoder: `Ok(value)` plus the remaining bytes, `Err`, a Rust panic, or an endless
loop. -/
inductive Res (α : Type) where
  | ok (value : α) (rest : Bytes)
  | err (e : Error)
  | panic
  | hang
deriving DecidableEq, Repr

/-- Sequencing with `?`. -/
def Res.bind {α β : Type} : Res α → (α → Bytes → Res β) → Res β
  | .ok v r, k => k v r
  | .err e, _ => .err e
  | .panic, _ => .panic
  | .hang, _ => .hang

/-- `Result::map`. -/
def Res.map {α β : Type} (f : α → β) (r : Res α) : Res β := r.bind fun v s => .ok (f v) s

/-- A decoder `fn(&mut impl Buf) -> Result<T>`. -/
abbrev Dec (α : Type) := Bytes → Res α

/-! ### Identifiers, lib.rs -/

/-- `FieldEncoding`, lib.rs:63-74. -/
inductive FieldEncoding where
  | varint | lengthPrefixed | fixed1 | fixed4 | fixed8
deriving DecidableEq, Repr

/-- `self.encoding as u32`: the explicit discriminants at lib.rs:63-74. -/
def FieldEncoding.toNat : FieldEncoding → Nat
  | .varint => 0
  | .lengthPrefixed => 1
  | .fixed1 => 2
  | .fixed4 => 3
  | .fixed8 => 4

/-- `FieldEncoding::from_u32`, lib.rs:80-89. -/
def FieldEncoding.fromU32 (value : BitVec 32) : Option FieldEncoding :=
  match (value &&& 0b111#32).toNat with
  | 0 => some .varint
  | 1 => some .lengthPrefixed
  | 2 => some .fixed1
  | 3 => some .fixed4
  | 4 => some .fixed8
  | _ => none

/-- `FieldId`, lib.rs:24-29. -/
structure FieldId where
  value : BitVec 32
  encoding : FieldEncoding
deriving DecidableEq, Repr

/-- `FieldId::from_u32`, lib.rs:43-50. -/
def FieldId.fromU32 (value : BitVec 32) : Option FieldId :=
  match FieldEncoding.fromU32 value with
  | none => none
  | some e => some ⟨value >>> 3, e⟩

/-- `FieldId::into_u32`, lib.rs:55-57: `(value << 3) | encoding as u32` (bits shifted out are lost). -/
def FieldId.intoU32 (id : FieldId) : BitVec 32 :=
  (id.value <<< 3) ||| BitVec.ofNat 32 id.encoding.toNat

/-! ### Encoders, buf/encode.rs -/

/-- `encode_bool`, encode.rs:8-10. -/
def encBool (v : Bool) : Bytes := [if v then 1 else 0]
/-- `encode_u8` / `encode_i8`, encode.rs:13-20 (bit pattern). -/
def encU8 (v : BitVec 8) : Bytes := [UInt8.ofBitVec v]
/-- `encode_uN` for varint widths, encode.rs:26-29. -/
def encUint {w : Nat} (v : BitVec w) : Bytes := encodeU v
/-- `encode_iN` for varint widths, encode.rs:26-29. -/
def encSint {w : Nat} (v : BitVec w) : Bytes := encodeI v

/-- `BufMut::put_*` of an `n`-byte big-endian value (bytes crate). -/
def beBytes : Nat → Nat → Bytes
  | 0, _ => []
  | n + 1, v => UInt8.ofNat (v / 256 ^ n) :: beBytes n (v % 256 ^ n)

/-- `Buf::get_*` big-endian value of bytes (bytes crate). -/
def beVal : Bytes → Nat
  | [] => 0
  | b :: bs => b.toNat * 256 ^ bs.length + beVal bs

/-- `encode_f32`, encode.rs:41-43: `put_f32` writes the IEEE bits big-endian; a float is its bit
pattern. -/
def encF32 (v : BitVec 32) : Bytes := beBytes 4 v.toNat
/-- `encode_f64`, encode.rs:46-48. -/
def encF64 (v : BitVec 64) : Bytes := beBytes 8 v.toNat

/-- A `usize` length written with `encode_u64(w, len as u64)`. -/
def encLen (n : Nat) : Bytes := encodeU (BitVec.ofNat 64 n)

/-- `encode_bytes_std`, encode.rs:56-59 (also `encode_bytes_bytes`, 62-64). -/
def encBytes (v : Bytes) : Bytes := encLen v.length ++ v

/-- `str::as_bytes`. -/
def strBytes (s : String) : Bytes := s.toByteArray.data.toList

/-- `encode_string`, encode.rs:51-53. -/
def encString (s : String) : Bytes := encBytes (strBytes s)

/-- `vec.iter().map(size).sum::<usize>()`. -/
def sumSizes {α : Type} (size : α → Nat) : List α → Nat
  | [] => 0
  | x :: xs => size x + sumSizes size xs

/-- `for value in vec { encode(w, value) }`. -/
def encElems {α : Type} (enc : α → Bytes) : List α → Bytes
  | [] => []
  | x :: xs => enc x ++ encElems enc xs

/-- `encode_vec`, encode.rs:67-78. -/
def encVec {α : Type} (xs : List α) (size : α → Nat) (enc : α → Bytes) : Bytes :=
  encLen (sumSizes size xs) ++ encElems enc xs

/-- `encode_hash_map`, encode.rs:81-106; the map is the list of its entries in iteration order. -/
def encHashMap {κ ν : Type} (m : List (κ × ν)) (sk : κ → Nat) (sv : ν → Nat) (ek : κ → Bytes)
    (ev : ν → Bytes) : Bytes :=
  encLen (sumSizes (fun e => sk e.1 + sv e.2) m) ++ encElems (fun e => ek e.1 ++ ev e.2) m

/-- `encode_hash_set`, encode.rs:109-120; the set is the list of its elements in iteration order. -/
def encHashSet {α : Type} (s : List α) (size : α → Nat) (enc : α → Bytes) : Bytes :=
  encLen (sumSizes size s) ++ encElems enc s

/-- `encode_option`, encode.rs:123-134. -/
def encOption {α : Type} (o : Option α) (enc : α → Bytes) : Bytes :=
  match o with
  | some v => 1 :: enc v
  | none => [0]

/-- `encode_array`, encode.rs:137-148. -/
def encArray {α : Type} (xs : List α) (size : α → Nat) (enc : α → Bytes) : Bytes :=
  encLen (sumSizes size xs) ++ encElems enc xs

/-- `encode_tuple`, encode.rs:152-160. -/
def encTuple (size : Nat) (body : Bytes) : Bytes := encLen size ++ body

/-- `encode_id`, encode.rs:164-166. -/
def encId (id : FieldId) : Bytes := encodeU id.intoU32
/-- `encode_variant_id`, encode.rs:170-172. -/
def encVariantId (id : BitVec 32) : Bytes := encodeU id
/-- `encode_field`, encode.rs:176-183. -/
def encField (id : FieldId) (body : Bytes) : Bytes := encId id ++ body
/-- `encode_field_option`, encode.rs:187-196. -/
def encFieldOption {α : Type} (id : FieldId) (o : Option α) (enc : α → Bytes) : Bytes :=
  match o with
  | some v => encId id ++ enc v
  | none => []

/-! ### Sizes, buf/size.rs -/

/-- `END_MARKER_SIZE`, size.rs:8. -/
def endMarkerSize : Nat := 1
/-- `size_u64(len as u64)`. -/
def sizeLen (n : Nat) : Nat := sizeU (BitVec.ofNat 64 n)
/-- `size_bytes_std`, size.rs:62-64 (also `size_bytes_bytes`, 67-69). -/
def sizeBytes (v : Bytes) : Nat := sizeLen v.length + v.length
/-- `size_string`, size.rs:56-58. -/
def sizeString (s : String) : Nat := sizeBytes (strBytes s)
/-- `size_vec`, size.rs:72-77: note the *element count* in the prefix size. -/
def sizeVec {α : Type} (xs : List α) (size : α → Nat) : Nat := sizeLen xs.length + sumSizes size xs
/-- `size_hash_map`, size.rs:80-90. -/
def sizeHashMap {κ ν : Type} (m : List (κ × ν)) (sk : κ → Nat) (sv : ν → Nat) : Nat :=
  sizeLen m.length + sumSizes (fun e => sk e.1 + sv e.2) m
/-- `size_hash_set`, size.rs:93-98. -/
def sizeHashSet {α : Type} (s : List α) (size : α → Nat) : Nat := sizeLen s.length + sumSizes size s
/-- `size_option`, size.rs:101-106. -/
def sizeOption {α : Type} (o : Option α) (size : α → Nat) : Nat :=
  1 + (match o with | some v => size v | none => 0)
/-- `size_array`, size.rs:109-114 (`N` is the list length). -/
def sizeArray {α : Type} (xs : List α) (size : α → Nat) : Nat := sizeLen xs.length + sumSizes size xs
/-- `size_field_id`, size.rs:119-121: `size_u32(id << 3)`. -/
def sizeFieldId (id : BitVec 32) : Nat := sizeU (id <<< 3)
/-- `size_variant_id`, size.rs:126-128. -/
def sizeVariantId (id : BitVec 32) : Nat := sizeU id
/-- `size_field`, size.rs:132-137. -/
def sizeField (id : BitVec 32) (size : Nat) : Nat := sizeFieldId id + size
/-- `size_field_option`, size.rs:141-146. -/
def sizeFieldOption {α : Type} (id : BitVec 32) (o : Option α) (size : α → Nat) : Nat :=
  match o with
  | some v => sizeFieldId id + size v
  | none => 0

/-! ### Decoders, buf/decode.rs -/

/-- `END_MARKER`, decode.rs:46. -/
def endMarker : Nat := 0

/-- `decode_u8` / `decode_i8`, decode.rs:71-84. -/
def decU8 : Dec (BitVec 8)
  | [] => .err .insufficientData
  | b :: r => .ok b.toBitVec r

/-- `decode_bool`, decode.rs:61-64. -/
def decBool : Dec Bool
  | [] => .err .insufficientData
  | b :: r => .ok (b != 0) r

/-- `decode_uN`, decode.rs:95-99 (`chunk()` of a contiguous buffer is all of it). -/
def decUint (w : Nat) : Dec (BitVec w) := fun r =>
  match decodeU w r with
  | none => .err .decodeInt
  | some (v, n) => .ok v (r.drop n)

/-- `decode_iN`, decode.rs:95-99. -/
def decSint (w : Nat) : Dec (BitVec w) := fun r =>
  match decodeI w r with
  | none => .err .decodeInt
  | some (v, n) => .ok v (r.drop n)

/-- `decode_f32`, decode.rs:115-118. -/
def decF32 : Dec (BitVec 32) := fun r =>
  if r.length < 4 then .err .insufficientData
  else .ok (BitVec.ofNat 32 (beVal (r.take 4))) (r.drop 4)

/-- `decode_f64`, decode.rs:125-128. -/
def decF64 : Dec (BitVec 64) := fun r =>
  if r.length < 8 then .err .insufficientData
  else .ok (BitVec.ofNat 64 (beVal (r.take 8))) (r.drop 8)

/-- The common prologue `let len = decode_u64(r)?; ensure_size!(r, len as usize);`
(e.g. decode.rs:146-147), handing the declared number of bytes and what follows to `k`. -/
def decPrefixed {β : Type} (k : Bytes → Bytes → Res β) : Dec β := fun r =>
  (decUint 64 r).bind fun len r =>
    if r.length < len.toNat then .err .insufficientData
    else k (r.take len.toNat) (r.drop len.toNat)

/-- `decode_bytes_std`, decode.rs:145-150 (also `decode_bytes_bytes`, 157-162). -/
def decBytes : Dec Bytes := decPrefixed fun body rest => .ok body rest

/-- `String::from_utf8`. -/
def fromUtf8 (bs : Bytes) : Option String := String.fromUTF8? ⟨bs.toArray⟩

/-- `String::from_utf8(..).map_err(Into::into)`. -/
def toStr (bs rest : Bytes) : Res String :=
  match fromUtf8 bs with
  | some s => .ok s rest
  | none => .err .nonUtf8

/-- `decode_string`, decode.rs:136-138. -/
def decString : Dec String := fun r => (decBytes r).bind toStr

/-- `while r.has_remaining() { vec.push(decode(&mut r)?) }` (e.g. decode.rs:181-183). The first
argument bounds the number of iterations; the caller passes the number of available bytes. When it is
exhausted with bytes left, some iteration consumed nothing, so (decoders being deterministic) the
Rust loop never ends: outcome `hang`. -/
def decodeMany {α : Type} (d : Dec α) : Nat → Bytes → Res (List α)
  | _, [] => .ok [] []
  | 0, _ :: _ => .hang
  | n + 1, b :: r =>
    (d (b :: r)).bind fun v r' => (decodeMany d n r').map (v :: ·)

/-- Run the loop on the `take(len)` window and continue with the bytes behind it. -/
def decWindow {α : Type} (d : Dec α) (body rest : Bytes) : Res (List α) :=
  (decodeMany d body.length body).bind fun xs _ => .ok xs rest

/-- `decode_vec`, decode.rs:170-186. -/
def decVec {α : Type} (d : Dec α) : Dec (List α) := decPrefixed (decWindow d)

/-- `HashMap::insert` on the entry list: replaces the value of an equal key. -/
def mapInsert {κ ν : Type} [DecidableEq κ] (k : κ) (v : ν) : List (κ × ν) → List (κ × ν)
  | [] => [(k, v)]
  | (k', v') :: m => if k' = k then (k', v) :: m else (k', v') :: mapInsert k v m

/-- `HashSet::insert` on the element list. -/
def setInsert {α : Type} [DecidableEq α] (x : α) (s : List α) : List α :=
  if x ∈ s then s else s ++ [x]

/-- Entries inserted one after the other, starting from the empty map. -/
def toMap {κ ν : Type} [DecidableEq κ] (es : List (κ × ν)) : List (κ × ν) :=
  es.foldl (fun m e => mapInsert e.1 e.2 m) []

/-- Elements inserted one after the other, starting from the empty set. -/
def toSet {α : Type} [DecidableEq α] (xs : List α) : List α :=
  xs.foldl (fun s x => setInsert x s) []

/-- Decode a key, then a value (decode.rs:212). -/
def decEntry {κ ν : Type} (dk : Dec κ) (dv : Dec ν) : Dec (κ × ν) := fun r =>
  (dk r).bind fun k r => (dv r).bind fun v r => .ok (k, v) r

/-- `decode_hash_map`, decode.rs:194-216 (insertions are done after the loop instead of inside it). -/
def decHashMap {κ ν : Type} [DecidableEq κ] (dk : Dec κ) (dv : Dec ν) : Dec (List (κ × ν)) := fun r =>
  (decPrefixed (decWindow (decEntry dk dv)) r).map toMap

/-- `decode_hash_set`, decode.rs:224-241. -/
def decHashSet {α : Type} [DecidableEq α] (d : Dec α) : Dec (List α) := fun r =>
  (decPrefixed (decWindow d) r).map toSet

/-- `decode_option`, decode.rs:249-256. -/
def decOption {α : Type} (d : Dec α) : Dec (Option α) := fun r =>
  (decU8 r).bind fun b r => if b = 1#8 then (d r).map some else .ok none r

/-- Loop of `decode_array`, decode.rs:277-279: `while r.has_remaining() && vec.len() < N`. -/
def decodeUpTo {α : Type} (d : Dec α) : Nat → Bytes → Res (List α)
  | 0, r => .ok [] r
  | _ + 1, [] => .ok [] []
  | n + 1, b :: r => (d (b :: r)).bind fun v r' => (decodeUpTo d n r').map (v :: ·)

/-- `decode_array`, decode.rs:265-287; `vec.try_into().unwrap()` panics unless exactly `N` elements
were read. -/
def decArray {α : Type} (n : Nat) (d : Dec α) : Dec (List α) :=
  decPrefixed fun body rest =>
    (decodeUpTo d n body).bind fun xs _ => if xs.length = n then .ok xs rest else .panic

/-- `decode_non_zero_{int}`, decode.rs:307-312. -/
def decNonZeroInt {w : Nat} (d : Dec (BitVec w)) : Dec (BitVec w) := fun r =>
  (d r).bind fun v r => if v = 0#w then .err .zero else .ok v r

/-- Prologue with `ensure_not_empty!` between the length and the size check (decode.rs:344-346). -/
def decPrefixedNz {β : Type} (k : Bytes → Bytes → Res β) : Dec β := fun r =>
  (decUint 64 r).bind fun len r =>
    if len = 0#64 then .err .zero
    else if r.length < len.toNat then .err .insufficientData
    else k (r.take len.toNat) (r.drop len.toNat)

/-- `NonZero::<..>::new(value).unwrap()`, lib.rs:174-176: panics on an empty collection. -/
def nzUnwrap {α : Type} (xs : List α) (rest : Bytes) : Res (List α) :=
  if xs.isEmpty then .panic else .ok xs rest

/-- `decode_non_zero_bytes_std`, decode.rs:343-349 (also `_bytes_bytes`, 358-364). -/
def decNonZeroBytes : Dec Bytes := decPrefixedNz fun body rest => nzUnwrap body rest

/-- `decode_non_zero_string`, decode.rs:330-334. -/
def decNonZeroString : Dec String := fun r =>
  (decNonZeroBytes r).bind fun bs r =>
    match fromUtf8 bs with
    | some s => if s.isEmpty then .panic else .ok s r
    | none => .err .nonUtf8

/-- `decode_non_zero_vec`, decode.rs:373-390. -/
def decNonZeroVec {α : Type} (d : Dec α) : Dec (List α) := fun r =>
  (decPrefixedNz (decWindow d) r).bind nzUnwrap

/-- `decode_non_zero_hash_map`, decode.rs:399-422. -/
def decNonZeroHashMap {κ ν : Type} [DecidableEq κ] (dk : Dec κ) (dv : Dec ν) : Dec (List (κ × ν)) :=
  fun r => (decPrefixedNz (decWindow (decEntry dk dv)) r).bind fun es r => nzUnwrap (toMap es) r

/-- `decode_non_zero_hash_set`, decode.rs:431-449. -/
def decNonZeroHashSet {α : Type} [DecidableEq α] (d : Dec α) : Dec (List α) := fun r =>
  (decPrefixedNz (decWindow d) r).bind fun xs r => nzUnwrap (toSet xs) r

/-- `decode_id`, decode.rs:458-460. -/
def decId : Dec FieldId := fun r =>
  (decUint 32 r).bind fun raw r =>
    match FieldId.fromU32 raw with
    | some id => .ok id r
    | none => .err (.unknownEncoding raw.toNat)

/-- `decode_variant_id`, decode.rs:469-471. -/
def decVariantId : Dec (BitVec 32) := decUint 32

/-- Skipping a varint, decode.rs:482-487 (no bound on its length). -/
def skipVarint : Dec Unit
  | [] => .err .insufficientData
  | b :: r => if b &&& 0x80 = 0 then .ok () r else skipVarint r

/-- `ensure_size!(r, n); r.advance(n)`, decode.rs:494-508. -/
def skipFixed (n : Nat) : Dec Unit := fun r =>
  if r.length < n then .err .insufficientData else .ok () (r.drop n)

/-- `decode_skip`, decode.rs:480-510. -/
def decSkip : FieldEncoding → Dec Unit
  | .varint => skipVarint
  | .lengthPrefixed => decPrefixed fun _ rest => .ok () rest
  | .fixed1 => skipFixed 1
  | .fixed4 => skipFixed 4
  | .fixed8 => skipFixed 8

end Mabo.Buf
