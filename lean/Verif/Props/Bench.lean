import Verif.Bench.Lemmas
import Verif.Props.Varint
/-! Properties of the codecs of the benchmarks: C62 (round trip), C63 (only the bytes of the value). -/
namespace Mabo.Props
open Mabo.Bench Mabo.Varint Mabo.Spec

/-- A codec for the values of a width: what is written to a buffer, read again, is the value. The buffer only has to be large
enough, its content does not matter, and it keeps its size. -/
def RoundTrips {w : Nat} (encode : BitVec w → Buffer → Option Buffer) (decode : Buffer → Option (BitVec w)) (size : Nat) : Prop :=
  ∀ v buf, size ≤ buf.length → ∃ buf', encode v buf = some buf' ∧ buf'.length = buf.length ∧ decode buf' = some v

theorem roundTrips_zigzag {w : Nat} (hw : 0 < w) {e : BitVec w → Buffer → Option Buffer} {d : Buffer → Option (BitVec w)} {n : Nat}
    (h : RoundTrips e d n) : RoundTrips (fun v => e (zigzagEncode v)) (fun buf => (d buf).map zigzagDecode) n := by
  intro v buf hn
  obtain ⟨buf', h1, h2, h3⟩ := h (zigzagEncode v) buf hn
  exact ⟨buf', h1, h2, by simp only [h3, Option.map_some, zigzagDecode_encode hw]⟩

/-! ## C62: round trip -/

/-- `postcard` writes exactly what the wire format has for the number, and nothing else. -/
theorem C62_postcard_bytes (v : BitVec 128) (buf : Buffer) (h : 19 ≤ buf.length) :
    postcardEncode v buf = some (encodeU v ++ buf.drop (encodeU v).length) := by
  have hm : postcardMax 128 = 19 := rfl
  rw [postcardEncode, hm, if_neg (by omega), postcardLoop_eq 19 v buf h]
  rfl

theorem C62_postcard : RoundTrips postcardEncode postcardDecode 19 := by
  intro v buf h
  have hl : (encodeU v).length ≤ 19 := encodeU_length_le (by omega) v
  have hlen : (encodeU v ++ buf.drop (encodeU v).length).length = buf.length := by
    rw [List.length_append, List.length_drop]; omega
  refine ⟨_, C62_postcard_bytes v buf h, hlen, ?_⟩
  have hm : postcardMax 128 = 19 := rfl
  rw [postcardDecode, hm, if_neg (by omega), postcardDecodeLoop_eq]
  have := decodeU_encodeU (w := 128) (by omega) v (buf.drop (encodeU v).length)
  unfold decodeU at this
  rw [show maxSize 128 = 19 from rfl] at this
  rw [this]
  rfl

theorem C62_postcard_signed : RoundTrips postcardEncodeI postcardDecodeI 19 := roundTrips_zigzag (by omega) C62_postcard

/-- Too small a buffer is a panic, not a wrong result. -/
theorem C62_postcard_small (v : BitVec 128) (buf : Buffer) (h : buf.length < 19) :
    postcardEncode v buf = none ∧ postcardDecode buf = none := by
  have hm : postcardMax 128 = 19 := rfl
  rw [postcardEncode, postcardDecode, hm, if_pos h, if_pos h]
  exact ⟨rfl, rfl⟩

theorem bincodeTag_spec {w v : Nat} (hw : VarintWidth w) (hv : v < 2 ^ w) (t n : Nat) (h : bincodeTag w v = (t, n)) :
    n ≤ w / 8 ∧ v < 256 ^ n ∧ bincodeLen w t = some n ∧ 250 < t ∧ t < 256 := by
  unfold bincodeTag at h
  have h256 : ∀ k, (256 : Nat) ^ k = 2 ^ (8 * k) := fun k => by rw [Nat.pow_mul]
  by_cases h1 : w = 16 ∨ v ≤ 2 ^ 16 - 1
  · rw [if_pos h1] at h
    cases h
    refine ⟨by rcases hw with h | h | h | h <;> subst h <;> omega, ?_, rfl, by omega, by omega⟩
    rw [h256]
    rcases h1 with rfl | h1
    · exact hv
    · omega
  rw [if_neg h1] at h
  by_cases h2 : w = 32 ∨ v ≤ 2 ^ 32 - 1
  · rw [if_pos h2] at h
    cases h
    have h3 : 32 ≤ w := by rcases hw with h | h | h | h <;> subst h <;> omega
    refine ⟨by omega, ?_, by simp [bincodeLen, h3], by omega, by omega⟩
    rw [h256]
    rcases h2 with rfl | h2
    · exact hv
    · omega
  rw [if_neg h2] at h
  by_cases h3 : w = 64 ∨ v ≤ 2 ^ 64 - 1
  · rw [if_pos h3] at h
    cases h
    have h4 : 64 ≤ w := by rcases hw with h | h | h | h <;> subst h <;> omega
    refine ⟨by omega, ?_, by simp [bincodeLen, h4], by omega, by omega⟩
    rw [h256]
    rcases h3 with rfl | h3
    · exact hv
    · omega
  rw [if_neg h3] at h
  cases h
  have h4 : w = 128 := by rcases hw with h | h | h | h <;> subst h <;> omega
  subst h4
  exact ⟨by omega, by rw [h256]; exact hv, rfl, by omega, by omega⟩

/-- What `bincode` writes. -/
theorem bincodeEncode_bytes {w : Nat} (hw : VarintWidth w) (v : BitVec w) (c : UInt8) (buf : Buffer) (h : w / 8 ≤ buf.length) :
    (v.toNat ≤ 250 ∧ bincodeEncode v (c :: buf) = some (UInt8.ofNat v.toNat :: buf)) ∨
    ∃ t n, 250 < v.toNat ∧ bincodeTag w v.toNat = (t, n) ∧
      bincodeEncode v (c :: buf) = some (UInt8.ofNat t :: (leBytes n v.toNat ++ buf.drop n)) := by
  have hl : ¬ (c :: buf).length ≤ w / 8 := by rw [List.length_cons]; omega
  by_cases hv : v.toNat ≤ 250
  · refine .inl ⟨hv, ?_⟩
    rw [bincodeEncode, if_neg hl, if_pos hv, put_zero, Nat.mod_eq_of_lt (by omega)]
  · refine .inr ?_
    cases ht : bincodeTag w v.toNat with
    | mk t n =>
      obtain ⟨h1, _⟩ := bincodeTag_spec hw v.isLt t n ht
      refine ⟨t, n, by omega, rfl, ?_⟩
      rw [bincodeEncode, if_neg hl, if_neg hv, ht]
      simp only [put_zero, Option.bind_some]
      rw [leBytes_take _ _ _ h1, put_one _ _ _ (by rw [leBytes_length]; omega), leBytes_length]

theorem C62_bincode (w : Nat) (hw : VarintWidth w) : RoundTrips (w := w) bincodeEncode (bincodeDecode w) (w / 8 + 1) := by
  intro v buf h
  cases buf with
  | nil => simp at h
  | cons c buf =>
    have h' : w / 8 ≤ buf.length := by simpa using h
    have h16 : 16 ≤ w := by rcases hw with h | h | h | h <;> omega
    rcases bincodeEncode_bytes hw v c buf h' with ⟨h1, h2⟩ | ⟨t, n, h0, h1, h2⟩
    · refine ⟨_, h2, rfl, ?_⟩
      have hb : (UInt8.ofNat v.toNat).toNat = v.toNat := by rw [UInt8.toNat_ofNat']; omega
      rw [bincodeDecode, if_neg (by rw [List.length_cons]; omega)]
      simp only [hb, if_pos h1, BitVec.ofNat_toNat, BitVec.setWidth_eq]
    · obtain ⟨h3, h4, h5, h6, h7⟩ := bincodeTag_spec hw v.isLt t n h1
      refine ⟨_, h2, by simp [leBytes_length]; omega, ?_⟩
      have hb : (UInt8.ofNat t).toNat = t := by rw [UInt8.toNat_ofNat']; omega
      rw [bincodeDecode, if_neg (by simp [leBytes_length]; omega)]
      have hs := slice_one (UInt8.ofNat t) (leBytes n v.toNat) (buf.drop n)
      rw [leBytes_length] at hs
      simp only [hb, if_neg (show ¬ t ≤ 250 by omega), h5, Option.bind_some, hs, Option.map_some, leVal_leBytes, Nat.mod_eq_of_lt h4,
        BitVec.ofNat_toNat, BitVec.setWidth_eq]

theorem bincodeZigzag_spec {w : Nat} (hw : 0 < w) (v : BitVec w) :
    ∃ z, bincodeZigzag v = some z ∧
      (if z.toNat % 2 = 0 then BitVec.ofNat w (z.toNat / 2) else ~~~(BitVec.ofNat w (z.toNat / 2))) = v := by
  have h2 := two_pow_split hw
  have hlt := v.isLt
  have hn : (~~~v).toNat = 2 ^ w - 1 - v.toNat := BitVec.toNat_not
  by_cases hneg : v.toInt < 0
  · have hv : 2 ^ w ≤ 2 * v.toNat := by
      rw [BitVec.toInt_eq_toNat_cond] at hneg
      split at hneg <;> omega
    have hsmall : (~~~v).toNat * 2 + 1 < 2 ^ w := by rw [hn]; omega
    refine ⟨BitVec.ofNat w ((~~~v).toNat * 2 + 1), by rw [bincodeZigzag]; simp only [if_pos hneg, if_pos hsmall], ?_⟩
    have e : (BitVec.ofNat w ((~~~v).toNat * 2 + 1)).toNat = (~~~v).toNat * 2 + 1 := by
      rw [BitVec.toNat_ofNat, Nat.mod_eq_of_lt hsmall]
    have e1 : ((~~~v).toNat * 2 + 1) / 2 = (~~~v).toNat := by omega
    rw [e, if_neg (by omega), e1, BitVec.ofNat_toNat, BitVec.setWidth_eq, BitVec.not_not]
  · have hv : v.toNat * 2 < 2 ^ w := by
      rw [BitVec.toInt_eq_toNat_cond] at hneg
      split at hneg <;> omega
    refine ⟨BitVec.ofNat w (v.toNat * 2), by rw [bincodeZigzag]; simp only [if_neg hneg, if_pos hv], ?_⟩
    have e : (BitVec.ofNat w (v.toNat * 2)).toNat = v.toNat * 2 := by rw [BitVec.toNat_ofNat, Nat.mod_eq_of_lt hv]
    have e1 : (v.toNat * 2) / 2 = v.toNat := by omega
    rw [e, if_pos (by omega), e1, BitVec.ofNat_toNat, BitVec.setWidth_eq]

theorem C62_bincode_signed (w : Nat) (hw : VarintWidth w) : RoundTrips (w := w) bincodeEncodeI (bincodeDecodeI w) (w / 8 + 1) := by
  intro v buf h
  obtain ⟨z, h1, h2⟩ := bincodeZigzag_spec (by rcases hw with h | h | h | h <;> omega) v
  obtain ⟨buf', h3, h4, h5⟩ := C62_bincode w hw z buf h
  exact ⟨buf', by rw [bincodeEncodeI, h1]; exact h3, h4, by rw [bincodeDecodeI, h5, Option.map_some, h2]⟩

theorem lenMask_spec {w : Nat} (hw : VarintWidth w) {q : Nat} (hq : q ≤ lenMask w) :
    0xf0 ||| (q ^^^ lenMask w) < 256 ∧ 0xf0 ≤ 0xf0 ||| (q ^^^ lenMask w) ∧
      (((0xf0 ||| (q ^^^ lenMask w)) &&& 0x0f) &&& lenMask w) ^^^ lenMask w = q := by
  rcases hw with rfl | rfl | rfl | rfl
  · exact (by decide : ∀ q, q ≤ 1 → 0xf0 ||| (q ^^^ 1) < 256 ∧ 0xf0 ≤ 0xf0 ||| (q ^^^ 1) ∧
      (((0xf0 ||| (q ^^^ 1)) &&& 0x0f) &&& 1) ^^^ 1 = q) q hq
  · exact (by decide : ∀ q, q ≤ 3 → 0xf0 ||| (q ^^^ 3) < 256 ∧ 0xf0 ≤ 0xf0 ||| (q ^^^ 3) ∧
      (((0xf0 ||| (q ^^^ 3)) &&& 0x0f) &&& 3) ^^^ 3 = q) q hq
  · exact (by decide : ∀ q, q ≤ 7 → 0xf0 ||| (q ^^^ 7) < 256 ∧ 0xf0 ≤ 0xf0 ||| (q ^^^ 7) ∧
      (((0xf0 ||| (q ^^^ 7)) &&& 0x0f) &&& 7) ^^^ 7 = q) q hq
  · exact (by decide : ∀ q, q ≤ 15 → 0xf0 ||| (q ^^^ 15) < 256 ∧ 0xf0 ≤ 0xf0 ||| (q ^^^ 15) ∧
      (((0xf0 ||| (q ^^^ 15)) &&& 0x0f) &&& 15) ^^^ 15 = q) q hq

theorem leadingZeros_le {w : Nat} (v : BitVec w) (h : 0xf0 ≤ v.toNat) : leadingZeros v ≤ w - 8 ∧ v.toNat < 2 ^ (w - leadingZeros v) := by
  have h0 : v.toNat ≠ 0 := by omega
  rw [leadingZeros, if_neg h0]
  have h1 : 7 ≤ v.toNat.log2 := (Nat.le_log2 h0).2 (by omega)
  have h2 : v.toNat.log2 < w := (Nat.log2_lt h0).2 v.isLt
  refine ⟨by omega, ?_⟩
  rw [show w - (w - (v.toNat.log2 + 1)) = v.toNat.log2 + 1 by omega]
  exact Nat.lt_log2_self

theorem mask_toNat (w q : Nat) (hq : q ≤ w) : (BitVec.allOnes w >>> q).toNat = 2 ^ (w - q) - 1 := by
  rw [BitVec.toNat_ushiftRight, BitVec.toNat_allOnes, Nat.shiftRight_eq_div_pow]
  have h : 2 ^ w = 2 ^ q * 2 ^ (w - q) := by rw [← Nat.pow_add]; congr 1; omega
  have h1 := Nat.mul_sub_div 0 (2 ^ q) (2 ^ (w - q)) (by rw [← h]; exact Nat.two_pow_pos w)
  rw [h]
  simpa using h1

/-- What `vu128` writes. -/
theorem vuEncode_bytes {w : Nat} (v : BitVec w) (c : UInt8) (buf : Buffer) (h : w / 8 ≤ buf.length) :
    (v.toNat < 0xf0 ∧ vuEncode v (c :: buf) = some (UInt8.ofNat v.toNat :: buf)) ∨
    (0xf0 ≤ v.toNat ∧ vuEncode v (c :: buf) =
      some (UInt8.ofNat (0xf0 ||| ((leadingZeros v >>> 3) ^^^ lenMask w)) :: (leBytes (w / 8) v.toNat ++ buf.drop (w / 8)))) := by
  have hl : ¬ (c :: buf).length ≤ w / 8 := by rw [List.length_cons]; omega
  by_cases hv : v.toNat < 0xf0
  · exact .inl ⟨hv, by rw [vuEncode, if_neg hl, if_pos hv, put_zero]⟩
  · refine .inr ⟨by omega, ?_⟩
    rw [vuEncode, if_neg hl, if_neg hv, put_one _ _ _ (by rw [leBytes_length]; omega), leBytes_length]
    simp only [Option.bind_some, put_zero]

theorem C62_vu128 (w : Nat) (hw : VarintWidth w) : RoundTrips (w := w) vuEncode (vuDecode w) (w / 8 + 1) := by
  intro v buf h
  cases buf with
  | nil => simp at h
  | cons c buf =>
    have h' : w / 8 ≤ buf.length := by simpa using h
    have h16 : 16 ≤ w := by rcases hw with h | h | h | h <;> omega
    have hlt := v.isLt
    rcases vuEncode_bytes v c buf h' with ⟨h1, h2⟩ | ⟨h1, h2⟩
    · refine ⟨_, h2, rfl, ?_⟩
      have hb : (UInt8.ofNat v.toNat).toNat = v.toNat := by rw [UInt8.toNat_ofNat']; omega
      rw [vuDecode, if_neg (by rw [List.length_cons]; omega)]
      simp only [hb, if_pos h1, BitVec.ofNat_toNat, BitVec.setWidth_eq]
    · refine ⟨_, h2, by simp [leBytes_length]; omega, ?_⟩
      obtain ⟨hz1, hz2⟩ := leadingZeros_le v h1
      have hq : leadingZeros v >>> 3 ≤ lenMask w := by
        rw [Nat.shiftRight_eq_div_pow, lenMask]
        omega
      have hq' : leadingZeros v >>> 3 ≤ leadingZeros v := by rw [Nat.shiftRight_eq_div_pow]; omega
      obtain ⟨h3, h4, h5⟩ := lenMask_spec hw hq
      revert h3 h4 h5
      generalize 0xf0 ||| ((leadingZeros v >>> 3) ^^^ lenMask w) = b
      intro h3 h4 h5
      have hb : (UInt8.ofNat b).toNat = b := by rw [UInt8.toNat_ofNat']; omega
      have hs := slice_one (UInt8.ofNat b) (leBytes (w / 8) v.toNat) (buf.drop (w / 8))
      rw [leBytes_length] at hs
      have h256 : v.toNat % 256 ^ (w / 8) = v.toNat := by
        apply Nat.mod_eq_of_lt
        rw [show (256 : Nat) = 2 ^ 8 from rfl, ← Nat.pow_mul]
        rcases hw with h | h | h | h <;> subst h <;> exact hlt
      rw [vuDecode, if_neg (by simp [leBytes_length]; omega)]
      simp only [hb, if_neg (show ¬ b < 0xf0 by omega), hs, Option.map_some, leVal_leBytes, h256, h5, BitVec.ofNat_toNat,
        BitVec.setWidth_eq, Option.some.injEq]
      apply BitVec.eq_of_toNat_eq
      rw [BitVec.toNat_and, mask_toNat w _ (by omega), Nat.and_two_pow_sub_one_eq_mod]
      apply Nat.mod_eq_of_lt
      exact Nat.lt_of_lt_of_le hz2 (Nat.pow_le_pow_right (by omega) (by omega))

theorem C62_vu128_signed (w : Nat) (hw : VarintWidth w) : RoundTrips (w := w) vuEncodeI (vuDecodeI w) (w / 8 + 1) :=
  roundTrips_zigzag (by rcases hw with h | h | h | h <;> omega) (C62_vu128 w hw)

theorem swapBytes_swapBytes {w : Nat} (hw : VarintWidth w) (v : BitVec w) : swapBytes (swapBytes v) = v := by
  have hp : 256 ^ (w / 8) = 2 ^ w := by
    rw [show (256 : Nat) = 2 ^ 8 from rfl, ← Nat.pow_mul]
    rcases hw with h | h | h | h <;> subst h <;> rfl
  apply BitVec.eq_of_toNat_eq
  have h1 := leVal_lt (leBytes (w / 8) v.toNat).reverse
  rw [List.length_reverse, leBytes_length, hp] at h1
  rw [swapBytes, swapBytes, BitVec.toNat_ofNat, BitVec.toNat_ofNat, Nat.mod_eq_of_lt h1]
  have h2 := leBytes_leVal (leBytes (w / 8) v.toNat).reverse
  rw [List.length_reverse, leBytes_length] at h2
  rw [h2, List.reverse_reverse, leVal_leBytes, hp, Nat.mod_eq_of_lt v.isLt, Nat.mod_eq_of_lt v.isLt]

/-- Floats, as bits (32 and 64). -/
theorem C62_vu128_floats (w : Nat) (hw : VarintWidth w) : RoundTrips (w := w) vuEncodeF (vuDecodeF w) (w / 8 + 1) := by
  intro v buf h
  obtain ⟨buf', h1, h2, h3⟩ := C62_vu128 w hw (swapBytes v) buf h
  exact ⟨buf', h1, h2, by rw [vuDecodeF, h3, Option.map_some, swapBytes_swapBytes hw]⟩

/-- Bytes: the values that round trip through every buffer are those below 15 and those from 240. All others are written to the
first byte of the buffer, but read from the second. -/
theorem C62_vu128_bytes_partial (v : BitVec 8) :
    (∀ buf : Buffer, 2 ≤ buf.length → ∃ buf', vuEncode8 v buf = some buf' ∧ vuDecode8 buf' = some v) ↔
    v.toNat < 15 ∨ 240 ≤ v.toNat := by
  have hlt := v.isLt
  have hb : (UInt8.ofNat v.toNat).toNat = v.toNat := by rw [UInt8.toNat_ofNat']; omega
  constructor
  · intro h
    refine Classical.byContradiction fun hc => ?_
    obtain ⟨buf', h1, h2⟩ := h [0, 0] (by decide)
    rw [vuEncode8, if_neg (by decide), if_pos (by omega), put_zero] at h1
    cases h1
    have hn : ¬ (UInt8.ofNat v.toNat).toNat < 0x0f := by rw [hb]; omega
    simp only [vuDecode8, if_neg (show ¬ ([UInt8.ofNat v.toNat, 0] : Buffer).length ≤ 1 by simp), if_neg hn] at h2
    have := congrArg BitVec.toNat (Option.some.inj h2)
    simp at this
    omega
  · intro h buf hl
    match buf, hl with
    | c :: d :: buf, _ =>
      have hn : ¬ (c :: d :: buf).length ≤ 1 := by simp
      rcases h with h | h
      · refine ⟨UInt8.ofNat v.toNat :: d :: buf, by rw [vuEncode8, if_neg hn, if_pos (by omega), put_zero], ?_⟩
        have hn : ¬ (UInt8.ofNat v.toNat :: d :: buf).length ≤ 1 := by simp
        rw [vuDecode8, if_neg hn]
        simp only [hb, if_pos (show v.toNat < 0x0f from h), BitVec.ofNat_toNat, BitVec.setWidth_eq]
      · refine ⟨0xf0 :: UInt8.ofNat v.toNat :: buf, ?_, ?_⟩
        · rw [vuEncode8, if_neg hn, if_neg (by omega), put_zero]
          simp only [Option.bind_some]
          exact put_one _ _ _ (by simp)
        · have hn : ¬ ((0xf0 : UInt8) :: UInt8.ofNat v.toNat :: buf).length ≤ 1 := by simp
          rw [vuDecode8, if_neg hn]
          have h2 : ¬ (0xf0 : UInt8).toNat < 0x0f := by decide
          simp only [if_neg h2, hb, BitVec.ofNat_toNat, BitVec.setWidth_eq]

/-- 100 and -100 are read as what was in the second byte. -/
theorem C62_vu128_bytes_refuted : ¬ RoundTrips vuEncode8 vuDecode8 2 ∧ ¬ RoundTrips vuEncodeI8 vuDecodeI8 2 := by
  constructor
  · intro h
    obtain ⟨buf', h1, _, h3⟩ := h 100#8 [0, 7] (by decide)
    have h4 : vuEncode8 100#8 [0, 7] = some [100, 7] := by decide
    rw [h4] at h1
    cases h1
    exact absurd h3 (by decide)
  · intro h
    obtain ⟨buf', h1, _, h3⟩ := h (-100#8) [0, 7] (by decide)
    have h4 : vuEncodeI8 (-100#8) [0, 7] = some [199, 7] := by decide
    rw [h4] at h1
    cases h1
    exact absurd h3 (by decide)

/-! ## C63: a value is in the bytes that are announced -/

/-- The bytes of a number are those up to the first that is less than 128. -/
theorem C63_postcard (v : BitVec 128) (buf rest : Buffer) (h : 19 ≤ buf.length) (hr : 19 ≤ rest.length) :
    ∃ buf' bytes, postcardEncode v buf = some buf' ∧ bytes <+: buf' ∧ IsVarint bytes ∧ postcardDecode (bytes ++ rest) = some v := by
  have hw : VarintWidth 128 := .inr (.inr (.inr rfl))
  refine ⟨_, encodeU v, C62_postcard_bytes v buf h, List.prefix_append _ _, (C01_encoding_denotes_value 128 hw v).1, ?_⟩
  rw [postcardDecode, show postcardMax 128 = 19 from rfl, if_neg (by rw [List.length_append]; omega), postcardDecodeLoop_eq]
  have := decodeU_encodeU (w := 128) (by omega) v rest
  unfold decodeU at this
  rw [show maxSize 128 = 19 from rfl] at this
  rw [this]
  rfl

/-- The number of bytes that the first byte of a `bincode` number announces, itself included. -/
def bincodeAnnounced (b : UInt8) : Nat :=
  if b.toNat ≤ 250 then 1 else if b.toNat = 251 then 3 else if b.toNat = 252 then 5 else if b.toNat = 253 then 9 else 17

theorem C63_bincode (w : Nat) (hw : VarintWidth w) (v : BitVec w) (buf rest : Buffer) (h : w / 8 < buf.length)
    (hr : w / 8 ≤ rest.length) :
    ∃ b bs, bincodeEncode v buf = some (b :: bs) ∧ bincodeDecode w ((b :: bs).take (bincodeAnnounced b) ++ rest) = some v := by
  cases buf with
  | nil => simp at h
  | cons c buf =>
    have h' : w / 8 ≤ buf.length := by simp at h; omega
    have h16 : 16 ≤ w := by rcases hw with h | h | h | h <;> omega
    rcases bincodeEncode_bytes hw v c buf h' with ⟨h1, h2⟩ | ⟨t, n, h0, h1, h2⟩
    · refine ⟨_, _, h2, ?_⟩
      have hb : (UInt8.ofNat v.toNat).toNat = v.toNat := by rw [UInt8.toNat_ofNat']; omega
      rw [bincodeAnnounced, if_pos (by omega), List.take_succ_cons, List.take_zero, List.cons_append, List.nil_append, bincodeDecode,
        if_neg (by rw [List.length_cons]; omega)]
      simp only [hb, if_pos h1, BitVec.ofNat_toNat, BitVec.setWidth_eq]
    · obtain ⟨h3, h4, h5, h6, h7⟩ := bincodeTag_spec hw v.isLt t n h1
      refine ⟨_, _, h2, ?_⟩
      have hb : (UInt8.ofNat t).toNat = t := by rw [UInt8.toNat_ofNat']; omega
      have ha : bincodeAnnounced (UInt8.ofNat t) = n + 1 := by
        unfold bincodeTag at h1
        rw [bincodeAnnounced, hb]
        split at h1
        · cases h1; rfl
        · split at h1
          · cases h1; rfl
          · split at h1
            · cases h1; rfl
            · cases h1; rfl
      have htake : (leBytes n v.toNat ++ buf.drop n).take n = leBytes n v.toNat := by
        rw [List.take_append_of_le_length (by rw [leBytes_length]; omega), List.take_of_length_le (by rw [leBytes_length]; omega)]
      rw [ha, List.take_succ_cons, htake, List.cons_append, bincodeDecode, if_neg (by simp [leBytes_length]; omega)]
      have hs := slice_one (UInt8.ofNat t) (leBytes n v.toNat) rest
      rw [leBytes_length] at hs
      simp only [hb, if_neg (show ¬ t ≤ 250 by omega), h5, Option.bind_some, hs, Option.map_some, leVal_leBytes, Nat.mod_eq_of_lt h4,
        BitVec.ofNat_toNat, BitVec.setWidth_eq]

/-- The number of bytes that the first byte of a `vu128` number announces, itself included. -/
def vuAnnounced (b : UInt8) : Nat := if b.toNat < 0xf0 then 1 else 2 + b.toNat % 16

/-- Numbers below 240 are in their first byte.

Missing: all other numbers, if bytes of something else follow (`C63_vu128_refuted`). -/
theorem C63_vu128_partial (w : Nat) (v : BitVec w) (hv : v.toNat < 0xf0) (buf rest : Buffer)
    (h : w / 8 < buf.length) (hr : w / 8 ≤ rest.length) :
    ∃ b bs, vuEncode v buf = some (b :: bs) ∧ vuDecode w ((b :: bs).take (vuAnnounced b) ++ rest) = some v := by
  cases buf with
  | nil => simp at h
  | cons c buf =>
    have h' : w / 8 ≤ buf.length := by simp at h; omega
    rcases vuEncode_bytes v c buf h' with ⟨h1, h2⟩ | ⟨h1, _⟩
    · refine ⟨_, _, h2, ?_⟩
      have hb : (UInt8.ofNat v.toNat).toNat = v.toNat := by rw [UInt8.toNat_ofNat']; omega
      rw [vuAnnounced, if_pos (by omega), List.take_succ_cons, List.take_zero, List.cons_append, List.nil_append, vuDecode,
        if_neg (by rw [List.length_cons]; omega)]
      simp only [hb, if_pos h1, BitVec.ofNat_toNat, BitVec.setWidth_eq]
    · omega

/-- The mask of `decode` keeps bytes that do not belong to the number: 300 and two other bytes are read as another number. -/
theorem C63_vu128_refuted : vuEncode 300#32 [0, 0, 0, 0, 0] = some [0xf1, 44, 1, 0, 0] ∧ vuAnnounced 0xf1 = 3 ∧
    vuDecode 32 ([0xf1, 44, 1] ++ [1, 1]) = some 16843052#32 := by decide

end Mabo.Props
