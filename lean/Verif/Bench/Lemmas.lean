import Verif.Bench.Varint
import Verif.VarintLemmas
import Verif.ZigzagLemmas
/-! Helper lemmas for the codecs of the benchmarks. -/
namespace Mabo.Bench
open Mabo.Varint

theorem leBytes_length : ∀ n v, (leBytes n v).length = n
  | 0, _ => rfl
  | n + 1, v => by rw [leBytes, List.length_cons, leBytes_length n]

theorem leVal_leBytes : ∀ n v, leVal (leBytes n v) = v % 256 ^ n
  | 0, v => by rw [leBytes, leVal, Nat.pow_zero, Nat.mod_one]
  | n + 1, v => by
    rw [leBytes, leVal, leVal_leBytes n, Nat.pow_succ, Nat.mul_comm (256 ^ n), Nat.mod_mul, UInt8.toNat_ofNat']
    omega

theorem leBytes_take : ∀ n m v, m ≤ n → (leBytes n v).take m = leBytes m v
  | _, 0, _, _ => by rw [List.take_zero, leBytes]
  | 0, m + 1, _, h => by omega
  | n + 1, m + 1, v, h => by rw [leBytes, List.take_succ_cons, leBytes_take n m _ (by omega), leBytes]

theorem leVal_lt : ∀ bs, leVal bs < 256 ^ bs.length
  | [] => by simp [leVal]
  | b :: bs => by
    have := leVal_lt bs
    have := b.toNat_lt
    rw [leVal, List.length_cons, Nat.pow_succ]
    omega

theorem leBytes_leVal : ∀ bs, leBytes bs.length (leVal bs) = bs
  | [] => rfl
  | b :: bs => by
    have h := b.toNat_lt
    have h1 : (b.toNat + 256 * leVal bs) % 256 = b.toNat := by omega
    have h2 : (b.toNat + 256 * leVal bs) / 256 = leVal bs := by omega
    rw [leVal, List.length_cons, leBytes, h1, h2, leBytes_leVal bs, UInt8.ofNat_toNat]

theorem put_zero (b c : UInt8) (buf : Buffer) : put (c :: buf) 0 [b] = some (b :: buf) := by
  simp [put]

theorem put_one (c : UInt8) (buf bs : Buffer) (h : bs.length ≤ buf.length) :
    put (c :: buf) 1 bs = some (c :: (bs ++ buf.drop bs.length)) := by
  rw [put, if_pos (by rw [List.length_cons]; omega)]
  rw [Nat.add_comm 1]
  rfl

theorem slice_one (c : UInt8) (bs rest : Buffer) : slice (c :: (bs ++ rest)) 1 bs.length = some bs := by
  rw [slice, if_pos (by simp; omega)]
  simp

/-! ### postcard -/

theorem postcardLoop_eq : ∀ (n : Nat) (v : BitVec 128) (buf : Buffer), n ≤ buf.length →
    postcardLoop n v buf = (encodeLoop n v).1 ++ buf.drop (encodeLoop n v).1.length
  | 0, v, buf, _ => by simp [postcardLoop, encodeLoop]
  | n + 1, v, [], h => by simp at h
  | n + 1, v, c :: buf, h => by
    have hb : UInt8.ofNat (v.toNat % 256) = UInt8.ofNat (v &&& 0xff#128).toNat := by
      congr 1
      rw [BitVec.toNat_and, show (0xff#128).toNat = 2 ^ 8 - 1 from rfl, Nat.and_two_pow_sub_one_eq_mod]
    rw [postcardLoop, encodeLoop]
    simp only [hb]
    by_cases hv : v.toNat < 128
    · rw [if_pos hv, if_pos hv]; rfl
    · rw [if_neg hv, if_neg hv, postcardLoop_eq n _ buf (by simpa using h)]
      rfl

theorem postcardDecodeLoop_eq {w : Nat} : ∀ (n i : Nat) (a : BitVec w) (buf : Buffer),
    postcardDecodeLoop n i a buf = (decodeLoop n i a buf).map (·.1)
  | 0, _, _, _ => rfl
  | _ + 1, _, _, [] => rfl
  | n + 1, i, a, b :: bs => by
    rw [postcardDecodeLoop, decodeLoop]
    by_cases h : b &&& 0x80 = 0
    · simp [h]
    · simp only [if_neg h]
      exact postcardDecodeLoop_eq n _ _ bs

end Mabo.Bench
