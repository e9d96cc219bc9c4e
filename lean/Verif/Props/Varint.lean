import Verif.Spec.Leb128
import Verif.VarintLemmas
import Verif.ZigzagLemmas
/-! Properties C01 - C05 of the varint layer. -/
namespace Mabo.Props
open Mabo.Varint Mabo.Spec

private theorem width8 {w : Nat} (hw : VarintWidth w) : 8 ≤ w := by
  unfold VarintWidth at hw; omega

private theorem maxSize_eq {w : Nat} (hw : VarintWidth w) : maxSize w = maxBytes w := by
  rcases hw with h | h | h | h <;> subst h <;> decide

private theorem leb_eq : ∀ bs, leb bs = base128 bs
  | [] => rfl
  | b :: bs => by simp [leb, base128, leb_eq bs]

/-- **C01**. Unsigned varint round trip with arbitrary trailing bytes; the consumed count is exactly
the number of encoded bytes. -/
theorem C01_unsigned_roundtrip (w : Nat) (hw : VarintWidth w) (v : BitVec w) (rest : List UInt8) :
    decodeU w (encodeU v ++ rest) = some (v, (encodeU v).length) :=
  decodeU_encodeU (width8 hw) v rest

/-- C01, wire content: what is written is one complete varint whose base-128 value is the integer. -/
theorem C01_encoding_denotes_value (w : Nat) (hw : VarintWidth w) (v : BitVec w) :
    IsVarint (encodeU v) ∧ base128 (encodeU v) = v.toNat := by
  have h8 := width8 hw
  have hp := maxSize_pos h8
  have hl := lt_pow_maxSize v
  refine ⟨?_, ?_⟩
  · have hf := encNat_findIdx (maxSize w) v.toNat hp hl []
    rw [List.append_nil, ← encodeU_eq h8, List.take_of_length_le (encodeU_length_le h8 v)] at hf
    obtain ⟨hlt, h1, h2⟩ := List.findIdx?_eq_some_iff_getElem.1 hf
    have hpos := encodeU_length_pos h8 v
    refine ⟨(encodeU v).dropLast, (encodeU v)[(encodeU v).length - 1], ?_, ?_, by simpa using h1⟩
    · rw [← List.getLast_eq_getElem (by intro h; simp [h] at hpos), List.dropLast_concat_getLast]
    · intro b hb
      obtain ⟨j, hj, rfl⟩ := List.getElem_of_mem hb
      have hj' : j < (encodeU v).length - 1 := by simpa using hj
      have := h2 j hj'
      simpa [List.getElem_dropLast] using this
  · rw [← leb_eq, encodeU_eq h8, encNat_leb _ _ hp hl]

/-- C01, side condition of the implementation: the `debug_assert_eq!(value, 0)` after the loop is
never reached, the encoder always returns from inside its loop. -/
theorem C01_encoder_never_exhausts_buffer (w : Nat) (hw : VarintWidth w) (v : BitVec w) :
    (encodeLoop (maxSize w) v).2 = true :=
  encodeLoop_returns _ _ (maxSize_pos (width8 hw)) (lt_pow_maxSize v)

/-- **C02**. Signed varint round trip with arbitrary trailing bytes. -/
theorem C02_signed_roundtrip (w : Nat) (hw : VarintWidth w) (v : BitVec w) (rest : List UInt8) :
    decodeI w (encodeI v ++ rest) = some (v, (encodeI v).length) := by
  have h8 := width8 hw
  unfold decodeI encodeI
  rw [decodeU_encodeU h8, Option.map_some, zigzagDecode_encode (by omega)]

/-- C02, meaning of the zigzag scheme: non-negative `v` maps to `2v`, negative `v` to `-2v-1`. -/
theorem C02_zigzag_meaning (w : Nat) (hw : VarintWidth w) (v : BitVec w) :
    (base128 (encodeI v) : Int) = if 0 ≤ v.toInt then 2 * v.toInt else -2 * v.toInt - 1 := by
  have h8 := width8 hw
  unfold encodeI
  rw [(C01_encoding_denotes_value w hw _).2]
  exact zigzagEncode_toNat (by omega) v

/-- C02, the mapping is a bijection, so no unsigned bit pattern is wasted. -/
theorem C02_zigzag_bijective (w : Nat) (hw : VarintWidth w) (u : BitVec w) :
    zigzagEncode (zigzagDecode u) = u ∧ zigzagDecode (zigzagEncode u) = u := by
  have h8 := width8 hw
  exact ⟨zigzagEncode_decode (by omega) u, zigzagDecode_encode (by omega) u⟩

/-- **C03**. The predicted size is the number of bytes written, and lies in `1 ..= maxBytes`. -/
theorem C03_unsigned_size_exact (w : Nat) (hw : VarintWidth w) (v : BitVec w) :
    sizeU v = (encodeU v).length ∧ 1 ≤ sizeU v ∧ sizeU v ≤ maxBytes w := by
  have h8 := width8 hw
  have h := sizeU_eq_length h8 v
  have := encodeU_length_le h8 v
  rw [maxSize_eq hw] at this
  exact ⟨h, sizeU_pos v, by omega⟩

/-- C03 for signed integers. -/
theorem C03_signed_size_exact (w : Nat) (hw : VarintWidth w) (v : BitVec w) :
    sizeI v = (encodeI v).length ∧ 1 ≤ sizeI v ∧ sizeI v ≤ maxBytes w :=
  C03_unsigned_size_exact w hw (zigzagEncode v)

/-- C03, boundaries: exactly the values below `128^k` fit in `k` bytes. -/
theorem C03_size_boundaries (w : Nat) (v : BitVec w) (k : Nat) (hk : 1 ≤ k) :
    sizeU v ≤ k ↔ v.toNat < 128 ^ k := by
  obtain ⟨k, rfl⟩ : ∃ j, k = j + 1 := ⟨k - 1, by omega⟩
  exact sizeU_le_iff v k

/-- **C04**. Exact behaviour of the unsigned decoder on *every* byte slice, success case. -/
theorem C04_decode_ok_iff (w : Nat) (hw : VarintWidth w) (bs : List UInt8) (v : BitVec w) (n : Nat) :
    decodeU w bs = some (v, n) ↔
      ∃ code rest, bs = code ++ rest ∧ IsVarint code ∧ code.length = n ∧ n ≤ maxBytes w ∧
        v.toNat = base128 code % 2 ^ w := by
  rw [decodeU_spec, ← maxSize_eq hw, Option.map_eq_some_iff]
  constructor
  · rintro ⟨k, hk, he⟩
    obtain ⟨hlt, h1, h2⟩ := List.findIdx?_eq_some_iff_getElem.1 hk
    simp only [Prod.mk.injEq] at he
    obtain ⟨hv, rfl⟩ := he
    have hlt' : k < bs.length ∧ k < maxSize w := by
      rw [List.length_take] at hlt; omega
    refine ⟨bs.take (k + 1), bs.drop (k + 1), (List.take_append_drop _ _).symm, ?_, ?_, by omega, ?_⟩
    · refine ⟨bs.take k, bs[k], ?_, ?_, ?_⟩
      · rw [List.take_append_getElem]
      · intro b hb
        obtain ⟨j, hj, rfl⟩ := List.getElem_of_mem hb
        have hj' : j < k := by rw [List.length_take] at hj; omega
        have := h2 j hj'
        simpa using this
      · simpa using h1
    · rw [List.length_take]; omega
    · rw [← hv, BitVec.toNat_ofNat, leb_eq]
  · rintro ⟨code, rest, rfl, ⟨pre, last, rfl, hpre, hlast⟩, rfl, hle, hval⟩
    refine ⟨pre.length, ?_, ?_⟩
    · rw [List.findIdx?_eq_some_iff_getElem]
      simp only [List.length_append, List.length_cons, List.length_nil] at hle
      refine ⟨by simp [List.length_take]; omega, ?_, ?_⟩
      · simpa using hlast
      · intro j hj
        have hj2 := hpre pre[j] (List.getElem_mem hj)
        simp [hj]
        omega
    · simp only [List.length_append, List.length_cons, List.length_nil, Nat.zero_add, Prod.mk.injEq,
        and_true]
      apply BitVec.eq_of_toNat_eq
      rw [List.take_left' (by simp), BitVec.toNat_ofNat, leb_eq, hval]

/-- C04, failure case: an error is reported iff none of the first `maxBytes` bytes ends a number. -/
theorem C04_decode_err_iff (w : Nat) (hw : VarintWidth w) (bs : List UInt8) :
    decodeU w bs = none ↔ ∀ b ∈ bs.take (maxBytes w), 128 ≤ b.toNat := by
  rw [decodeU_spec, ← maxSize_eq hw, Option.map_eq_none_iff, List.findIdx?_eq_none_iff]
  simp

/-- C04, the decoder looks at no byte beyond the documented maximum. -/
theorem C04_decode_bounded_lookahead (w : Nat) (hw : VarintWidth w) (bs : List UInt8) :
    decodeU w bs = decodeU w (bs.take (maxBytes w)) := by
  rw [← maxSize_eq hw, decodeU_spec, decodeU_spec, List.take_take, Nat.min_self]
  apply Option.map_congr
  intro k hk
  obtain ⟨hlt, _, _⟩ := List.findIdx?_eq_some_iff_getElem.1 hk
  rw [List.length_take] at hlt
  rw [List.take_take, Nat.min_eq_left (by omega)]

/-- C04 for the signed decoder: same acceptance, the value is the zigzag image. -/
theorem C04_signed_decode_iff (w : Nat) (bs : List UInt8) (v : BitVec w) (n : Nat) (hw : VarintWidth w) :
    decodeI w bs = some (v, n) ↔ decodeU w bs = some (zigzagEncode v, n) := by
  have h8 := width8 hw
  unfold decodeI
  rw [Option.map_eq_some_iff]
  constructor
  · rintro ⟨⟨u, m⟩, h1, h2⟩
    simp only [Prod.mk.injEq] at h2
    rw [h1, ← h2.1, ← h2.2, zigzagEncode_decode (by omega)]
  · intro h
    exact ⟨_, h, by simp [zigzagDecode_encode (show 0 < w by omega)]⟩

/-- C04: shift amounts in the decoder stay below the width, so `<<` never overflows. -/
theorem C04_shift_in_range (w : Nat) (hw : VarintWidth w) (i : Nat) (hi : i < maxSize w) : 7 * i < w := by
  have := width8 hw
  unfold maxSize at hi; omega

/-- **C05**. Prefix-freeness (hence injectivity). -/
theorem C05_prefix_free (w : Nat) (hw : VarintWidth w) (u v : BitVec w)
    (h : encodeU u <+: encodeU v) : u = v := by
  obtain ⟨s, hs⟩ := h
  have h1 := C01_unsigned_roundtrip w hw u s
  have h2 := C01_unsigned_roundtrip w hw v []
  rw [hs] at h1
  rw [List.append_nil, h1] at h2
  simp at h2
  exact h2.1

/-- C05 for signed integers. -/
theorem C05_prefix_free_signed (w : Nat) (hw : VarintWidth w) (u v : BitVec w)
    (h : encodeI u <+: encodeI v) : u = v := by
  have h8 := width8 hw
  have := C05_prefix_free w hw _ _ h
  rw [← zigzagDecode_encode (show 0 < w by omega) u, this, zigzagDecode_encode (by omega)]

private theorem base128_lt : ∀ bs, base128 bs < 128 ^ bs.length
  | [] => by simp [base128]
  | b :: bs => by
    have := base128_lt bs
    simp only [base128, List.length_cons, Nat.pow_succ]
    omega

/-- C05, minimality: whatever byte sequence decodes to `v`, the encoder uses no more bytes. -/
theorem C05_minimal (w : Nat) (hw : VarintWidth w) (bs : List UInt8) (v : BitVec w) (n : Nat)
    (h : decodeU w bs = some (v, n)) : (encodeU v).length ≤ n := by
  obtain ⟨code, rest, rfl, ⟨pre, last, hc, _, _⟩, rfl, _, hv⟩ := (C04_decode_ok_iff w hw bs v n).1 h
  have hpos : 1 ≤ code.length := by rw [hc]; simp
  rw [← (C03_unsigned_size_exact w hw v).1, C03_size_boundaries w v _ hpos, hv]
  exact Nat.lt_of_le_of_lt (Nat.mod_le _ _) (base128_lt code)

/-- Limit of C05 (observation, proved): the decoder also accepts non-minimal and overflowing forms, so
encoding after decoding is not the identity on bytes. -/
theorem C05_decoder_accepts_noncanonical :
    decodeU 16 [0x80, 0x00] = some (0#16, 2) ∧ decodeU 16 [0xff, 0xff, 0x7f] = some (0xffff#16, 3) := by
  decide

/-! Satisfiability of the hypotheses / concrete instances. -/
example : VarintWidth 64 := by decide
example : encodeU (300#32) = [0xac, 0x02] := by decide
example : encodeI (BitVec.ofInt 16 (-32768)) = [0xff, 0xff, 0x03] := by decide
example : decodeU 16 [0xff, 0xff, 0xff] = none := by decide
example : encodeU (5#16) <+: encodeU (5#16) := List.prefix_refl _

end Mabo.Props
