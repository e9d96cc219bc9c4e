import Verif.Varint
/-! Helper lemmas about the varint model. -/
namespace Mabo.Varint

theorem u8_and7f (b : UInt8) : (b &&& 0x7f).toNat = b.toNat % 128 := by
  rw [UInt8.toNat_and]
  exact Nat.and_two_pow_sub_one_eq_mod b.toNat 7

theorem u8_or80 (b : UInt8) : (b ||| 0x80).toNat = 128 + b.toNat % 128 := by
  have h : ∀ n : Fin 256, (n.val ||| 128) = 128 + n.val % 128 := by decide +kernel
  rw [UInt8.toNat_or]
  exact h ⟨b.toNat, b.toNat_lt⟩

theorem u8_and80 (b : UInt8) : (b &&& 0x80 = 0) ↔ b.toNat < 128 := by
  have h : ∀ n : Fin 256, (n.val &&& 128) = 0 ↔ n.val < 128 := by decide +kernel
  rw [← UInt8.toNat_inj, UInt8.toNat_and]
  exact h ⟨b.toNat, b.toNat_lt⟩

/-- Base-128 little-endian value of the low seven bits of each byte. -/
def leb : List UInt8 → Nat
  | [] => 0
  | b :: bs => b.toNat % 128 + 128 * leb bs

theorem decodeLoop_spec {w : Nat} (n i A : Nat) (bs : List UInt8) (hA : A < 2 ^ (7 * i)) :
    decodeLoop n i (BitVec.ofNat w A) bs =
      ((bs.take n).findIdx? (fun b => b.toNat < 128)).map fun k =>
        (BitVec.ofNat w (A + 2 ^ (7 * i) * leb (bs.take (k + 1))), i + k + 1) := by
  induction n generalizing i A bs with
  | zero => simp [decodeLoop]
  | succ n ih =>
    cases bs with
    | nil => simp [decodeLoop]
    | cons b bs =>
      have hv : BitVec.ofNat w A ||| (BitVec.ofNat w (b &&& 0x7f).toNat <<< (7 * i))
          = BitVec.ofNat w (A + 2 ^ (7 * i) * (b.toNat % 128)) := by
        apply BitVec.eq_of_toNat_eq
        rw [BitVec.toNat_or, BitVec.toNat_shiftLeft, BitVec.toNat_ofNat, BitVec.toNat_ofNat,
          BitVec.toNat_ofNat, u8_and7f, Nat.shiftLeft_eq, Nat.mod_mul_mod, ← Nat.or_mod_two_pow]
        congr 1
        rw [Nat.mul_comm, Nat.or_comm, ← Nat.two_pow_add_eq_or_of_lt hA, Nat.add_comm]
      simp only [decodeLoop, hv, u8_and80, List.take_succ_cons, List.findIdx?_cons]
      by_cases hb : b.toNat < 128
      · simp [hb, leb]
      · have hlt : A + 2 ^ (7 * i) * (b.toNat % 128) < 2 ^ (7 * (i + 1)) := by
          have h1 : 2 ^ (7 * (i + 1)) = 2 ^ (7 * i) * 128 := by
            rw [show 7 * (i + 1) = 7 * i + 7 by omega, Nat.pow_add]
          have h2 : b.toNat % 128 ≤ 127 := by omega
          have h3 := Nat.mul_le_mul_left (2 ^ (7 * i)) h2
          omega
        rw [if_neg (by simpa using hb), ih _ _ _ hlt]
        simp only [hb, decide_false, Bool.false_eq_true, if_false, Option.map_map]
        congr 1
        funext k
        simp only [Function.comp_apply, leb, Prod.mk.injEq]
        refine ⟨?_, by omega⟩
        congr 1
        have h1 : 2 ^ (7 * (i + 1)) = 2 ^ (7 * i) * 128 := by
          rw [show 7 * (i + 1) = 7 * i + 7 by omega, Nat.pow_add]
        rw [h1, Nat.mul_add, Nat.mul_assoc, Nat.add_assoc]

theorem decodeU_spec (w : Nat) (bs : List UInt8) :
    decodeU w bs = ((bs.take (maxSize w)).findIdx? (fun b => b.toNat < 128)).map fun k =>
        (BitVec.ofNat w (leb (bs.take (k + 1))), k + 1) := by
  have := decodeLoop_spec (w := w) (maxSize w) 0 0 bs (by simp)
  simpa [decodeU] using this

/-- The base-128 digits of a number with continuation bits. -/
def encNat : Nat → Nat → List UInt8
  | 0, _ => []
  | n + 1, v => if v < 128 then [UInt8.ofNat v] else UInt8.ofNat (128 + v % 128) :: encNat n (v / 128)

theorem u8_ofNat_or (v : Nat) : (UInt8.ofNat (v % 256) ||| 0x80) = UInt8.ofNat (128 + v % 128) := by
  apply UInt8.toNat_inj.1
  rw [u8_or80, UInt8.toNat_ofNat', UInt8.toNat_ofNat']
  omega

theorem encodeLoop_eq {w : Nat} (hw : 8 ≤ w) (n : Nat) (v : BitVec w) :
    (encodeLoop n v).1 = encNat n v.toNat := by
  induction n generalizing v with
  | zero => rfl
  | succ n ih =>
    have hff : (v &&& 0xff#w).toNat = v.toNat % 256 := by
      rw [BitVec.toNat_and, BitVec.toNat_ofNat, Nat.mod_eq_of_lt (a := 255)]
      · exact Nat.and_two_pow_sub_one_eq_mod v.toNat 8
      · exact Nat.lt_of_lt_of_le (by decide : 255 < 2 ^ 8) (Nat.pow_le_pow_right (by decide) hw)
    simp only [encodeLoop, encNat, hff]
    by_cases h : v.toNat < 128
    · have : v.toNat % 256 = v.toNat := Nat.mod_eq_of_lt (by omega)
      simp [h, this]
    · simp only [h, if_false, u8_ofNat_or, ih, BitVec.toNat_ushiftRight, Nat.shiftRight_eq_div_pow]

theorem encodeLoop_returns {w : Nat} (n : Nat) (v : BitVec w) (hn : 0 < n) (h : v.toNat < 128 ^ n) :
    (encodeLoop n v).2 = true := by
  induction n generalizing v with
  | zero => omega
  | succ n ih =>
    simp only [encodeLoop]
    by_cases hv : v.toNat < 128
    · simp [hv]
    · simp only [hv, if_false]
      have hn' : 0 < n := by
        rcases n with _ | n
        · simp at h; omega
        · omega
      apply ih _ hn'
      rw [BitVec.toNat_ushiftRight, Nat.shiftRight_eq_div_pow]
      rw [Nat.pow_succ] at h
      exact Nat.div_lt_of_lt_mul (by rw [Nat.mul_comm]; exact h)

theorem lt_pow_maxSize {w : Nat} (v : BitVec w) : v.toNat < 128 ^ maxSize w := by
  have h1 : v.toNat < 2 ^ w := v.isLt
  have h2 : (128 : Nat) = 2 ^ 7 := by decide
  rw [h2, ← Nat.pow_mul]
  refine Nat.lt_of_lt_of_le h1 (Nat.pow_le_pow_right (by decide) ?_)
  unfold maxSize; omega

theorem encNat_leb (n v : Nat) (hn : 0 < n) (h : v < 128 ^ n) : leb (encNat n v) = v := by
  induction n generalizing v with
  | zero => omega
  | succ n ih =>
    simp only [encNat]
    by_cases hv : v < 128
    · simp [hv, leb, UInt8.toNat_ofNat']
    · have hn' : 0 < n := by
        rcases n with _ | n
        · simp at h; omega
        · omega
      have : v / 128 < 128 ^ n := by
        rw [Nat.pow_succ] at h
        exact Nat.div_lt_of_lt_mul (by rw [Nat.mul_comm]; exact h)
      simp only [hv, if_false, leb, ih _ hn' this, UInt8.toNat_ofNat']
      omega

/-- Shape of an encoding: last byte is the only terminator. -/
theorem encNat_findIdx (n v : Nat) (hn : 0 < n) (h : v < 128 ^ n) (s : List UInt8) :
    ((encNat n v ++ s).take n).findIdx? (fun b => b.toNat < 128) = some ((encNat n v).length - 1) := by
  induction n generalizing v with
  | zero => omega
  | succ n ih =>
    simp only [encNat]
    by_cases hv : v < 128
    · have : v % 256 < 128 := by omega
      simp [hv, List.findIdx?_cons, UInt8.toNat_ofNat', this]
    · have hn' : 0 < n := by
        rcases n with _ | n
        · simp at h; omega
        · omega
      have hlt : v / 128 < 128 ^ n := by
        rw [Nat.pow_succ] at h
        exact Nat.div_lt_of_lt_mul (by rw [Nat.mul_comm]; exact h)
      have hne : ¬ (128 + v % 128) % 256 < 128 := by omega
      have hlen : 0 < (encNat n (v / 128)).length := by
        cases n with
        | zero => omega
        | succ n => simp only [encNat]; split <;> simp
      simp only [hv, if_false, List.cons_append, List.take_succ_cons, List.findIdx?_cons,
        UInt8.toNat_ofNat', hne, ih _ hn' hlt, List.length_cons]
      simp
      omega

theorem encNat_length_pos (n v : Nat) (hn : 0 < n) : 0 < (encNat n v).length := by
  cases n with
  | zero => omega
  | succ n => simp only [encNat]; split <;> simp

theorem encNat_length_le (n v : Nat) : (encNat n v).length ≤ n := by
  induction n generalizing v with
  | zero => simp [encNat]
  | succ n ih =>
    simp only [encNat]; split
    · simp
    · simpa using ih (v / 128)

/-- number of base-128 digits -/
theorem encNat_length_spec (n v k : Nat) (h : v < 128 ^ n) (hn : 0 < n) :
    (encNat n v).length ≤ k + 1 ↔ v < 128 ^ (k + 1) := by
  induction n generalizing v k with
  | zero => omega
  | succ n ih =>
    simp only [encNat]
    by_cases hv : v < 128
    · simp [hv]
      exact Nat.lt_of_lt_of_le hv (Nat.le_self_pow (by omega) 128)
    · have hn' : 0 < n := by
        rcases n with _ | n
        · simp at h; omega
        · omega
      have hlt : v / 128 < 128 ^ n := by
        rw [Nat.pow_succ] at h
        exact Nat.div_lt_of_lt_mul (by rw [Nat.mul_comm]; exact h)
      have hpos := encNat_length_pos n (v / 128) hn'
      cases k with
      | zero => simp [hv]; intro h0; rw [h0] at hpos; simp at hpos
      | succ k =>
        simp only [hv, if_false, List.length_cons]
        have := ih (v / 128) k hlt hn'
        rw [show ((encNat n (v / 128)).length + 1 ≤ k + 1 + 1) ↔
          ((encNat n (v / 128)).length ≤ k + 1) by omega, this, Nat.div_lt_iff_lt_mul (by decide),
          ← Nat.pow_succ]

theorem encodeU_eq {w : Nat} (hw : 8 ≤ w) (v : BitVec w) : encodeU v = encNat (maxSize w) v.toNat :=
  encodeLoop_eq hw _ v

theorem maxSize_pos {w : Nat} (hw : 8 ≤ w) : 0 < maxSize w := by unfold maxSize; omega

theorem encodeU_length_le {w : Nat} (hw : 8 ≤ w) (v : BitVec w) : (encodeU v).length ≤ maxSize w := by
  rw [encodeU_eq hw]; exact encNat_length_le _ _

theorem encodeU_length_pos {w : Nat} (hw : 8 ≤ w) (v : BitVec w) : 0 < (encodeU v).length := by
  rw [encodeU_eq hw]; exact encNat_length_pos _ _ (maxSize_pos hw)

theorem decodeU_encodeU {w : Nat} (hw : 8 ≤ w) (v : BitVec w) (s : List UInt8) :
    decodeU w (encodeU v ++ s) = some (v, (encodeU v).length) := by
  have hpos := encodeU_length_pos hw v
  rw [decodeU_spec, encodeU_eq hw] at *
  rw [encNat_findIdx _ _ (maxSize_pos hw) (lt_pow_maxSize v)]
  rw [Option.map_some, Nat.sub_add_cancel hpos, List.take_left' rfl,
    encNat_leb _ _ (maxSize_pos hw) (lt_pow_maxSize v)]
  simp

theorem sizeU_le_iff {w : Nat} (v : BitVec w) (k : Nat) : sizeU v ≤ k + 1 ↔ v.toNat < 128 ^ (k + 1) := by
  have hb : (if v.toNat = 0 then 0 else v.toNat.log2 + 1) ≤ w := by
    split
    · omega
    · rename_i h
      have := (Nat.log2_lt h).2 v.isLt
      omega
  have hkey : (if v.toNat = 0 then 0 else v.toNat.log2 + 1) ≤ 7 * (k + 1) ↔ v.toNat < 128 ^ (k + 1) := by
    have h2 : (128 : Nat) ^ (k + 1) = 2 ^ (7 * (k + 1)) := by
      rw [show (128 : Nat) = 2 ^ 7 by decide, ← Nat.pow_mul]
    rw [h2]
    split
    · rename_i h; rw [h]; simp [Nat.two_pow_pos]
    · rename_i h
      rw [← Nat.log2_lt h]; omega
  rw [← hkey]
  unfold sizeU sizeOfLz leadingZeros
  generalize (if v.toNat = 0 then 0 else v.toNat.log2 + 1) = L at *
  have : w - (w - L) = L := by omega
  rw [this]
  simp only []
  split <;> omega

theorem sizeU_pos {w : Nat} (v : BitVec w) : 0 < sizeU v := by
  unfold sizeU sizeOfLz; simp only []; split <;> omega

theorem sizeU_eq_length {w : Nat} (hw : 8 ≤ w) (v : BitVec w) : sizeU v = (encodeU v).length := by
  have h1 := sizeU_pos v
  have h2 := encodeU_length_pos hw v
  have key : ∀ k, sizeU v ≤ k + 1 ↔ (encodeU v).length ≤ k + 1 := by
    intro k
    rw [sizeU_le_iff, encodeU_eq hw, encNat_length_spec _ _ _ (lt_pow_maxSize v) (maxSize_pos hw)]
  have a := (key (sizeU v - 1)).1 (by omega)
  have b := (key ((encodeU v).length - 1)).2 (by omega)
  omega

end Mabo.Varint
