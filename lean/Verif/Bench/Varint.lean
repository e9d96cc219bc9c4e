import Verif.Varint
/-!
Model of `crates/mabo-benches/src/varint.rs`: the integer codecs that the benchmarks compare with the one of the wire format.
Integers of width `w` are `BitVec w` (signed ones in two's complement). A codec writes to and reads from a buffer that the
caller provides; `none` is a panic (a failed `assert!`, an index out of bounds, an overflow, `panic!`).
-/
namespace Mabo.Bench
open Mabo.Varint (zigzagEncode zigzagDecode leadingZeros)

/-- The content of a buffer. -/
abbrev Buffer := List UInt8

/-- `uN::to_le_bytes` (`n` bytes). -/
def leBytes : Nat → Nat → List UInt8
  | 0, _ => []
  | n + 1, v => UInt8.ofNat (v % 256) :: leBytes n (v / 256)

/-- `uN::from_le_bytes`. -/
def leVal : List UInt8 → Nat
  | [] => 0
  | b :: bs => b.toNat + 256 * leVal bs

/-- `buf[i..][..bytes.len()].copy_from_slice(bytes)`; panics if the buffer is too small. -/
def put (buf : Buffer) (i : Nat) (bytes : List UInt8) : Option Buffer :=
  if i + bytes.length ≤ buf.length then some (buf.take i ++ bytes ++ buf.drop (i + bytes.length)) else none

/-- `buf[i..][..n]`; panics if the buffer is too small. -/
def slice (buf : Buffer) (i n : Nat) : Option (List UInt8) :=
  if i + n ≤ buf.length then some ((buf.drop i).take n) else none

/-! ### postcard -/

/-- `max_size::<u128>()`, varint.rs:2-5: `(size_of::<T>() * 8 + 7) / 7`. -/
def postcardMax (w : Nat) : Nat := (w + 7) / 7

/-- Loop of `postcard::encode`, varint.rs:10-18, over the first bytes of the buffer. -/
def postcardLoop {w : Nat} : Nat → BitVec w → Buffer → Buffer
  | 0, _, buf => buf
  | _ + 1, _, [] => []
  | n + 1, v, _ :: buf =>
    let b : UInt8 := UInt8.ofNat (v.toNat % 256)
    if v.toNat < 128 then b :: buf else (b ||| 0x80) :: postcardLoop n (v >>> 7) buf

/-- `postcard::encode`, varint.rs:7-19. -/
def postcardEncode (v : BitVec 128) (buf : Buffer) : Option Buffer :=
  if buf.length < postcardMax 128 then none else some (postcardLoop (postcardMax 128) v buf)

/-- Loop of `postcard::decode`, varint.rs:36-44. -/
def postcardDecodeLoop {w : Nat} : Nat → Nat → BitVec w → Buffer → Option (BitVec w)
  | 0, _, _, _ => none
  | _ + 1, _, _, [] => none
  | n + 1, i, value, b :: bs =>
    let value := value ||| (BitVec.ofNat w (b &&& 0x7f).toNat <<< (7 * i))
    if b &&& 0x80 = 0 then some value else postcardDecodeLoop n (i + 1) value bs

/-- `postcard::decode`, varint.rs:32-47. -/
def postcardDecode (buf : Buffer) : Option (BitVec 128) :=
  if buf.length < postcardMax 128 then none else postcardDecodeLoop (postcardMax 128) 0 0#128 buf

/-- `postcard::encode_i128`, varint.rs:21-30, with `encode_zigzag` (the same as in the wire format). -/
def postcardEncodeI (v : BitVec 128) (buf : Buffer) : Option Buffer := postcardEncode (zigzagEncode v) buf

/-- `postcard::decode_i128`, varint.rs:49-59, with `decode_zigzag`. -/
def postcardDecodeI (buf : Buffer) : Option (BitVec 128) := (postcardDecode buf).map zigzagDecode

/-! ### bincode -/

/-- The chain of comparisons in `bincode::encode_u16` to `encode_u128`, varint.rs:96-101, 119-127, 145-156, 174-188: the
first byte and the number of bytes behind it; each function ends with its own width. -/
def bincodeTag (w v : Nat) : Nat × Nat :=
  if w = 16 ∨ v ≤ 2 ^ 16 - 1 then (251, 2)
  else if w = 32 ∨ v ≤ 2 ^ 32 - 1 then (252, 4)
  else if w = 64 ∨ v ≤ 2 ^ 64 - 1 then (253, 8)
  else (254, 16)

/-- `bincode::encode_u16` (varint.rs:94-102), `encode_u32` (117-128), `encode_u64` (143-157), `encode_u128` (172-189). -/
def bincodeEncode {w : Nat} (v : BitVec w) (buf : Buffer) : Option Buffer :=
  if buf.length ≤ w / 8 then none
  else if v.toNat ≤ 250 then put buf 0 [UInt8.ofNat (v.toNat % 256)]
  else
    let (tag, n) := bincodeTag w v.toNat
    (put buf 0 [UInt8.ofNat tag]).bind fun buf => put buf 1 ((leBytes (w / 8) v.toNat).take n)

/-- The number of bytes behind a first byte, `bincode::decode_u16` to `decode_u128`, varint.rs:207-215, 233-246, 264-282,
300-323. -/
def bincodeLen (w tag : Nat) : Option Nat :=
  if tag = 251 then some 2
  else if tag = 252 ∧ 32 ≤ w then some 4
  else if tag = 253 ∧ 64 ≤ w then some 8
  else if tag = 254 ∧ 128 ≤ w then some 16
  else none

/-- `bincode::decode_u16` (varint.rs:205-216), `decode_u32` (231-247), `decode_u64` (262-283), `decode_u128` (298-324). -/
def bincodeDecode (w : Nat) (buf : Buffer) : Option (BitVec w) :=
  if buf.length ≤ w / 8 then none
  else match buf with
    | [] => none
    | b :: _ =>
      if b.toNat ≤ 250 then some (BitVec.ofNat w b.toNat)
      else (bincodeLen w b.toNat).bind fun n => (slice buf 1 n).map fun bs => BitVec.ofNat w (leVal bs)

/-- The argument in `bincode::encode_i16` to `encode_i128`, varint.rs:107-111, 133-137, 162-166, 194-198; the operations panic on overflow. -/
def bincodeZigzag {w : Nat} (v : BitVec w) : Option (BitVec w) :=
  let n := if v.toInt < 0 then (~~~v).toNat * 2 + 1 else v.toNat * 2
  if n < 2 ^ w then some (BitVec.ofNat w n) else none

/-- `bincode::encode_i16` to `encode_i128`, varint.rs:105-114, 131-140, 160-169, 192-201. -/
def bincodeEncodeI {w : Nat} (v : BitVec w) (buf : Buffer) : Option Buffer := (bincodeZigzag v).bind (bincodeEncode · buf)

/-- `bincode::decode_i16` to `decode_i128`, varint.rs:220-227, 251-258, 287-294, 328-335. -/
def bincodeDecodeI (w : Nat) (buf : Buffer) : Option (BitVec w) := (bincodeDecode w buf).map fun v =>
  if v.toNat % 2 = 0 then BitVec.ofNat w (v.toNat / 2) else ~~~(BitVec.ofNat w (v.toNat / 2))

/-! ### vu128 -/

/-- The literal `len_mask` of the macros: the number of bytes less one, varint.rs:419-422, 434-437. -/
def lenMask (w : Nat) : Nat := w / 8 - 1

/-- `vu128::encode_u16` to `encode_u128`, the macro at varint.rs:373-388. -/
def vuEncode {w : Nat} (v : BitVec w) (buf : Buffer) : Option Buffer :=
  if buf.length ≤ w / 8 then none
  else if v.toNat < 0xf0 then put buf 0 [UInt8.ofNat v.toNat]
  else
    (put buf 1 (leBytes (w / 8) v.toNat)).bind fun buf =>
      put buf 0 [UInt8.ofNat (0xf0 ||| ((leadingZeros v >>> 3) ^^^ lenMask w))]

/-- `vu128::decode_u16` to `decode_u128`, the macro at varint.rs:390-406; the mask is shifted by a number of bytes, not bits. -/
def vuDecode (w : Nat) (buf : Buffer) : Option (BitVec w) :=
  if buf.length ≤ w / 8 then none
  else match buf with
    | [] => none
    | b :: _ =>
      if b.toNat < 0xf0 then some (BitVec.ofNat w b.toNat)
      else (slice buf 1 (w / 8)).map fun bs =>
        let len := b.toNat &&& 0x0f
        BitVec.ofNat w (leVal bs) &&& (BitVec.allOnes w >>> ((len &&& lenMask w) ^^^ lenMask w))

/-- `vu128::encode_u8`, varint.rs:409-417. -/
def vuEncode8 (v : BitVec 8) (buf : Buffer) : Option Buffer :=
  if buf.length ≤ 1 then none
  else if v.toNat < 0xf0 then put buf 0 [UInt8.ofNat v.toNat]
  else (put buf 0 [0xf0]).bind fun buf => put buf 1 [UInt8.ofNat v.toNat]

/-- `vu128::decode_u8`, varint.rs:426-432: the bound is `0x0f` here. -/
def vuDecode8 (buf : Buffer) : Option (BitVec 8) :=
  if buf.length ≤ 1 then none
  else match buf with
    | b :: c :: _ => if b.toNat < 0x0f then some (BitVec.ofNat 8 b.toNat) else some (BitVec.ofNat 8 c.toNat)
    | _ => none

/-- `vu128::encode_i16` to `encode_i128`, the macro at varint.rs:439-453. -/
def vuEncodeI {w : Nat} (v : BitVec w) (buf : Buffer) : Option Buffer := vuEncode (zigzagEncode v) buf
/-- `vu128::decode_i16` to `decode_i128`, the macro at varint.rs:455-469. -/
def vuDecodeI (w : Nat) (buf : Buffer) : Option (BitVec w) := (vuDecode w buf).map zigzagDecode
/-- `vu128::encode_i8`, varint.rs:471. -/
def vuEncodeI8 (v : BitVec 8) (buf : Buffer) : Option Buffer := vuEncode8 (zigzagEncode v) buf
/-- `vu128::decode_i8`, varint.rs:477. -/
def vuDecodeI8 (buf : Buffer) : Option (BitVec 8) := (vuDecode8 buf).map zigzagDecode

/-- `uN::swap_bytes`. -/
def swapBytes {w : Nat} (v : BitVec w) : BitVec w := BitVec.ofNat w (leVal (leBytes (w / 8) v.toNat).reverse)

/-- `vu128::encode_f32`, `encode_f64`, varint.rs:484-491; a float is its bits. -/
def vuEncodeF {w : Nat} (v : BitVec w) (buf : Buffer) : Option Buffer := vuEncode (swapBytes v) buf
/-- `vu128::decode_f32`, `decode_f64`, varint.rs:495-505. -/
def vuDecodeF (w : Nat) (buf : Buffer) : Option (BitVec w) := (vuDecode w buf).map swapBytes

end Mabo.Bench
