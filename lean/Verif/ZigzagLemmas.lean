import Verif.Varint
/-! Helper lemmas: arithmetic meaning of the zigzag bit tricks. -/
namespace Mabo.Varint

theorem two_pow_split {w : Nat} (hw : 0 < w) : 2 ^ w = 2 * 2 ^ (w - 1) := by
  obtain ⟨k, rfl⟩ : ∃ k, w = k + 1 := ⟨w - 1, by omega⟩
  simp [Nat.pow_succ, Nat.mul_comm]

theorem sshiftRight_top {w : Nat} (v : BitVec w) :
    v.sshiftRight (w - 1) = if v.msb then BitVec.allOnes w else 0#w := by
  apply BitVec.eq_of_getLsbD_eq
  intro i hi
  rw [BitVec.getLsbD_sshiftRight]
  by_cases h : w - 1 + i < w
  · have hi0 : i = 0 := by omega
    subst hi0
    have : v.getLsbD (w - 1) = v.msb := by rw [BitVec.msb_eq_getLsbD_last]
    cases hm : v.msb <;> simp [this, hm, hi] <;> omega
  · have : ¬ w ≤ i := by omega
    cases hm : v.msb <;> simp [h, this, hi]

theorem zigzagEncode_toNat {w : Nat} (hw : 0 < w) (v : BitVec w) :
    ((zigzagEncode v).toNat : Int) = if 0 ≤ v.toInt then 2 * v.toInt else -2 * v.toInt - 1 := by
  have hlt := v.isLt
  have h2 := two_pow_split hw
  unfold zigzagEncode
  rw [sshiftRight_top]
  have hmsb := BitVec.msb_eq_decide v
  have hint := BitVec.toInt_eq_msb_cond v
  cases hm : v.msb
  · rw [hm] at hmsb hint
    simp at hmsb hint
    have h1 : v.toNat * 2 < 2 ^ w := by omega
    rw [hint]
    simp only [Bool.false_eq_true, if_false, BitVec.xor_zero, BitVec.toNat_shiftLeft,
      Nat.shiftLeft_eq, Nat.pow_one]
    rw [Nat.mod_eq_of_lt h1, if_pos (by omega)]
    push_cast; omega
  · rw [hm] at hmsb hint
    simp at hmsb hint
    have h1 : 2 ^ w ≤ v.toNat * 2 := by omega
    rw [hint]
    simp only [if_true, BitVec.xor_allOnes, BitVec.toNat_not, BitVec.toNat_shiftLeft,
      Nat.shiftLeft_eq, Nat.pow_one]
    rw [Nat.mod_eq_sub_mod h1, Nat.mod_eq_of_lt (by omega)]
    have hc : ((2 ^ w : Nat) : Int) = (2 : Int) ^ w := by push_cast; rfl
    rw [← hc, if_neg (by omega)]
    omega

theorem and_one_toNat {w : Nat} (hw : 0 < w) (u : BitVec w) : (u &&& 1#w).toNat = u.toNat % 2 := by
  rw [BitVec.toNat_and, BitVec.toNat_ofNat, Nat.mod_eq_of_lt (a := 1)]
  · exact Nat.and_one_is_mod _
  · exact Nat.one_lt_two_pow (by omega)

theorem zigzagDecode_toInt {w : Nat} (hw : 0 < w) (u : BitVec w) :
    (zigzagDecode u).toInt = if u.toNat % 2 = 0 then (u.toNat : Int) / 2 else -((u.toNat : Int) / 2) - 1 := by
  have hlt := u.isLt
  have h2 := two_pow_split hw
  have h1w : 1 < 2 ^ w := Nat.one_lt_two_pow (by omega)
  have hand := and_one_toNat hw u
  unfold zigzagDecode
  by_cases hp : u.toNat % 2 = 0
  · have : u &&& 1#w = 0#w := by
      apply BitVec.eq_of_toNat_eq; rw [hand, hp]; simp
    rw [this, if_pos hp]
    simp only [BitVec.neg_zero, BitVec.xor_zero]
    rw [BitVec.toInt_eq_toNat_of_lt]
    · simp [Nat.shiftRight_eq_div_pow]
    · simp only [BitVec.toNat_ushiftRight, Nat.shiftRight_eq_div_pow]; omega
  · have : u &&& 1#w = 1#w := by
      apply BitVec.eq_of_toNat_eq; rw [hand, BitVec.toNat_ofNat, Nat.mod_eq_of_lt h1w]; omega
    rw [this, if_neg hp, BitVec.neg_one_eq_allOnes, BitVec.xor_allOnes]
    have hn : (~~~(u >>> 1)).toNat = 2 ^ w - 1 - u.toNat / 2 := by
      rw [BitVec.toNat_not, BitVec.toNat_ushiftRight, Nat.shiftRight_eq_div_pow]
    rw [BitVec.toInt_eq_toNat_cond, hn, if_neg (by omega)]
    omega

theorem zigzagDecode_encode {w : Nat} (hw : 0 < w) (v : BitVec w) : zigzagDecode (zigzagEncode v) = v := by
  apply BitVec.eq_of_toInt_eq
  rw [zigzagDecode_toInt hw]
  have h := zigzagEncode_toNat hw v
  split at h
  · rw [if_pos (by omega)]; omega
  · rw [if_neg (by omega)]; omega

theorem zigzagEncode_decode {w : Nat} (hw : 0 < w) (u : BitVec w) : zigzagEncode (zigzagDecode u) = u := by
  apply BitVec.eq_of_toNat_eq
  have h := zigzagEncode_toNat hw (zigzagDecode u)
  rw [zigzagDecode_toInt hw] at h
  split at h <;> split at h <;> omega

end Mabo.Varint
