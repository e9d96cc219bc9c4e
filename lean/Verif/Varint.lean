/-
Model of `crates/mabo/src/varint.rs`.

Integers of width `w` are `BitVec w`; a signed integer is the bit vector of its two's complement
representation. The Rust macros instantiate `w = 16, 32, 64, 128`; the model is generic in `w`.
-/
namespace Mabo.Varint

/-- `max_size::<T>()`, varint.rs:52-55: `(size_of::<T>() * 8).div_ceil(7)`. -/
def maxSize (w : Nat) : Nat := (w + 6) / 7

/-- `zigzag_encode_*`, varint.rs:11-13: `((value << 1) ^ (value >> (BITS - 1))) as uN`
(the right shift is arithmetic because the operand is signed). -/
def zigzagEncode {w : Nat} (v : BitVec w) : BitVec w :=
  (v <<< 1) ^^^ (v.sshiftRight (w - 1))

/-- `zigzag_decode_*`, varint.rs:18-20: `((value >> 1) as iN) ^ (-((value & 0b1) as iN))`
(the right shift is logical because the operand is unsigned). -/
def zigzagDecode {w : Nat} (v : BitVec w) : BitVec w :=
  (v >>> 1) ^^^ (-(v &&& 1#w))

/-- Loop body of `encode_uN`, varint.rs:79-87. The first argument counts the remaining slots of the
output buffer. The Boolean tells whether the function returned from inside the loop (`true`) or fell
through to the `debug_assert_eq!(value, 0)` at line 89 (`false`). Only the written part of the
buffer (`buf[..len]`, see buf/encode.rs:27-28) is kept. -/
def encodeLoop {w : Nat} : Nat → BitVec w → List UInt8 × Bool
  | 0, _ => ([], false)
  | n + 1, v =>
    let b : UInt8 := UInt8.ofNat (v &&& 0xff#w).toNat
    if v.toNat < 128 then ([b], true)
    else
      let r := encodeLoop n (v >>> 7)
      ((b ||| 0x80) :: r.1, r.2)

/-- `encode_uN`, varint.rs:76-91. -/
def encodeU {w : Nat} (v : BitVec w) : List UInt8 := (encodeLoop (maxSize w) v).1

/-- Loop of `decode_uN`, varint.rs:102-108: first argument = slots left of `.take(max_size)`,
`i` = index, `value` = accumulator. -/
def decodeLoop {w : Nat} : Nat → Nat → BitVec w → List UInt8 → Option (BitVec w × Nat)
  | 0, _, _, _ => none
  | _ + 1, _, _, [] => none
  | n + 1, i, value, b :: bs =>
    let value := value ||| (BitVec.ofNat w (b &&& 0x7f).toNat <<< (7 * i))
    if b &&& 0x80 = 0 then some (value, i + 1)
    else decodeLoop n (i + 1) value bs

/-- `decode_uN`, varint.rs:100-111; `none` is `Err(DecodeIntError)`. -/
def decodeU (w : Nat) (bs : List UInt8) : Option (BitVec w × Nat) :=
  decodeLoop (maxSize w) 0 0#w bs

/-- `uN::leading_zeros` (standard library): zero bits above the most significant one bit. -/
def leadingZeros {w : Nat} (v : BitVec w) : Nat :=
  w - (if v.toNat = 0 then 0 else v.toNat.log2 + 1)

/-- `size::<T>(leading_zeros)`, varint.rs:58-63: `max(1, (bits - lz).div_ceil(7))`. -/
def sizeOfLz (w lz : Nat) : Nat :=
  let n := (w - lz + 6) / 7
  if 1 > n then 1 else n

/-- `size_uN`, varint.rs:116-118. -/
def sizeU {w : Nat} (v : BitVec w) : Nat := sizeOfLz w (leadingZeros v)

/-- `encode_iN`, varint.rs:123-125. -/
def encodeI {w : Nat} (v : BitVec w) : List UInt8 := encodeU (zigzagEncode v)

/-- `decode_iN`, varint.rs:134-136. -/
def decodeI (w : Nat) (bs : List UInt8) : Option (BitVec w × Nat) :=
  (decodeU w bs).map fun r => (zigzagDecode r.1, r.2)

/-- `size_iN`, varint.rs:141-143. -/
def sizeI {w : Nat} (v : BitVec w) : Nat := sizeOfLz w (leadingZeros (zigzagEncode v))

end Mabo.Varint
