import Verif.BufLemmas
/-! Properties C06 - C11 and C22 of the runtime buffer layer (`crates/mabo`). -/
namespace Mabo.Props
open Mabo.Varint Mabo.Buf

/-! ### C06 field identifiers -/

theorem enc_lt (e : FieldEncoding) : e.toNat < 5 := by cases e <;> decide

theorem intoU32_toNat (id : FieldId) :
    id.intoU32.toNat = 8 * (id.value.toNat % 2 ^ 29) + id.encoding.toNat := by
  have he := enc_lt id.encoding
  have hv := id.value.isLt
  unfold FieldId.intoU32
  rw [BitVec.toNat_or, BitVec.toNat_shiftLeft, BitVec.toNat_ofNat,
    Nat.mod_eq_of_lt (show id.encoding.toNat < 2 ^ 32 by omega), Nat.shiftLeft_eq]
  have h1 : id.value.toNat * 2 ^ 3 % 2 ^ 32 = (id.value.toNat % 2 ^ 29) <<< 3 := by
    rw [Nat.shiftLeft_eq]; omega
  rw [h1, ← Nat.shiftLeft_add_eq_or_of_lt (by omega), Nat.shiftLeft_eq]
  omega

private theorem fromU32_encoding (raw : BitVec 32) : (raw &&& 0b111#32).toNat = raw.toNat % 8 := by
  rw [BitVec.toNat_and]
  exact Nat.and_two_pow_sub_one_eq_mod raw.toNat 3

private theorem fromU32_spec (raw : BitVec 32) (id : FieldId) :
    FieldId.fromU32 raw = some id ↔ raw.toNat = 8 * id.value.toNat + id.encoding.toNat := by
  have hr := raw.isLt
  have hv := id.value.isLt
  have he := enc_lt id.encoding
  have hshift : ∀ x : BitVec 32, raw >>> 3 = x ↔ raw.toNat / 8 = x.toNat := by
    intro x
    rw [← BitVec.toNat_inj, BitVec.toNat_ushiftRight, Nat.shiftRight_eq_div_pow]
  obtain ⟨v, e⟩ := id
  unfold FieldId.fromU32 FieldEncoding.fromU32
  rw [fromU32_encoding]
  dsimp only at hv he ⊢
  have hm : raw.toNat % 8 < 8 := Nat.mod_lt _ (by omega)
  cases e <;> simp only [FieldEncoding.toNat] at he ⊢ <;>
    (generalize hq : raw.toNat % 8 = m at hm ⊢
     match m, hm with
     | 0, _ => simp [hshift] <;> omega
     | 1, _ => simp [hshift] <;> omega
     | 2, _ => simp [hshift] <;> omega
     | 3, _ => simp [hshift] <;> omega
     | 4, _ => simp [hshift] <;> omega
     | 5, _ => simp; omega
     | 6, _ => simp; omega
     | 7, _ => simp; omega)

/-- **C06**. Packing then unpacking gives the field number and the encoding back, below `2^29`. -/
theorem C06_pack_unpack (id : FieldId) (h : id.value.toNat < 2 ^ 29) :
    FieldId.fromU32 id.intoU32 = some id := by
  rw [fromU32_spec, intoU32_toNat, Nat.mod_eq_of_lt h]

/-- C06: the packed number is `8 * number + marker`. -/
theorem C06_packed_value (id : FieldId) (h : id.value.toNat < 2 ^ 29) :
    id.intoU32.toNat = 8 * id.value.toNat + id.encoding.toNat := by
  rw [intoU32_toNat, Nat.mod_eq_of_lt h]

/-- C06: unpacking fails exactly for markers 5, 6 and 7. -/
theorem C06_unpack_fails_iff (raw : BitVec 32) :
    FieldId.fromU32 raw = none ↔ 5 ≤ raw.toNat % 8 := by
  constructor
  · intro h
    by_cases hc : 5 ≤ raw.toNat % 8
    · exact hc
    exfalso
    have : ∃ e : FieldEncoding, e.toNat = raw.toNat % 8 := by
      have : raw.toNat % 8 < 5 := by omega
      generalize raw.toNat % 8 = m at this ⊢
      match m, this with
      | 0, _ => exact ⟨.varint, rfl⟩
      | 1, _ => exact ⟨.lengthPrefixed, rfl⟩
      | 2, _ => exact ⟨.fixed1, rfl⟩
      | 3, _ => exact ⟨.fixed4, rfl⟩
      | 4, _ => exact ⟨.fixed8, rfl⟩
    obtain ⟨e, he⟩ := this
    have := (fromU32_spec raw ⟨raw >>> 3, e⟩).2 (by
      dsimp only
      rw [BitVec.toNat_ushiftRight, Nat.shiftRight_eq_div_pow, he]; omega)
    rw [h] at this; simp at this
  · intro h
    cases hf : FieldId.fromU32 raw with
    | none => rfl
    | some id =>
      have := (fromU32_spec raw id).1 hf
      have := enc_lt id.encoding
      omega

/-- C06: packing after unpacking is the identity, on every raw value that unpacks. -/
theorem C06_unpack_pack (raw : BitVec 32) (id : FieldId) (h : FieldId.fromU32 raw = some id) :
    id.intoU32 = raw := by
  have h1 := (fromU32_spec raw id).1 h
  have := raw.isLt
  apply BitVec.eq_of_toNat_eq
  rw [intoU32_toNat, h1, Nat.mod_eq_of_lt (by omega)]

/-- C06: numbers of `2^29` and above lose their high bits; they never come back as written. -/
theorem C06_large_ids_do_not_survive (id : FieldId) :
    FieldId.fromU32 id.intoU32 = some ⟨BitVec.ofNat 32 (id.value.toNat % 2 ^ 29), id.encoding⟩ ∧
    (2 ^ 29 ≤ id.value.toNat → FieldId.fromU32 id.intoU32 ≠ some id) := by
  have h1 : FieldId.fromU32 id.intoU32 =
      some ⟨BitVec.ofNat 32 (id.value.toNat % 2 ^ 29), id.encoding⟩ := by
    rw [fromU32_spec, intoU32_toNat]
    dsimp only
    rw [BitVec.toNat_ofNat, Nat.mod_eq_of_lt (b := 2 ^ 32) (by omega)]
  refine ⟨h1, fun hge he => ?_⟩
  rw [h1, Option.some.injEq] at he
  have : (BitVec.ofNat 32 (id.value.toNat % 2 ^ 29)).toNat = id.value.toNat := by
    conv => rhs; rw [← he]
  rw [BitVec.toNat_ofNat, Nat.mod_eq_of_lt (b := 2 ^ 32) (by omega)] at this
  omega

/-- C06 on the wire: the identifier read back is the one written, and its announced size is exact. -/
theorem C06_wire_roundtrip (id : FieldId) (h : id.value.toNat < 2 ^ 29) (s : Bytes) :
    decId (encId id ++ s) = .ok id s ∧ sizeFieldId id.value = (encId id).length := by
  constructor
  · unfold decId encId
    rw [decUint_enc (by omega), Res.bind_ok, C06_pack_unpack id h]
  · unfold sizeFieldId encId
    rw [← sizeU_eq_length (by omega)]
    have hn := C06_packed_value id h
    have hs : (id.value <<< 3).toNat = 8 * id.value.toNat := by
      rw [BitVec.toNat_shiftLeft, Nat.shiftLeft_eq]; omega
    have he := enc_lt id.encoding
    have key : ∀ k, sizeU (id.value <<< 3) ≤ k + 1 ↔ sizeU id.intoU32 ≤ k + 1 := by
      intro k
      rw [sizeU_le_iff, sizeU_le_iff, hn, hs]
      have : 128 ^ (k + 1) = 8 * (16 * 128 ^ k) := by rw [Nat.pow_succ]; omega
      omega
    have p1 := sizeU_pos (id.value <<< 3)
    have p2 := sizeU_pos id.intoU32
    have a := (key (sizeU id.intoU32 - 1)).2 (by omega)
    have b := (key (sizeU (id.value <<< 3) - 1)).1 (by omega)
    omega

example : FieldId.fromU32 (FieldId.intoU32 ⟨5#32, .fixed4⟩) = some ⟨5#32, .fixed4⟩ := by decide
example : FieldId.fromU32 (FieldId.intoU32 ⟨0x20000001#32, .fixed4⟩) = some ⟨1#32, .fixed4⟩ := by decide
example : FieldId.fromU32 7#32 = none := by decide

/-! ### C07 strings and bytes -/

/-- **C07**. Byte arrays round trip; trailing data is untouched and the announced size is exact. -/
theorem C07_bytes_roundtrip (v s : Bytes) (h : v.length < 2 ^ 64) :
    decBytes (encBytes v ++ s) = .ok v s ∧ sizeBytes v = (encBytes v).length := by
  constructor
  · unfold decBytes encBytes
    rw [List.append_assoc, decPrefixed_enc _ _ _ h]
  · simp [sizeBytes, encBytes, encLen_length]

/-- C07 for strings. -/
theorem C07_string_roundtrip (v : String) (s : Bytes) (h : v.utf8ByteSize < 2 ^ 64) :
    decString (encString v ++ s) = .ok v s ∧ sizeString v = (encString v).length := by
  have h' : (strBytes v).length < 2 ^ 64 := by
    have e : (strBytes v).length = v.utf8ByteSize := by
      simp only [strBytes, Array.length_toList]; rfl
    rw [e]; exact h
  have hb := C07_bytes_roundtrip (strBytes v) s h'
  refine ⟨?_, hb.2⟩
  unfold decString encString
  rw [hb.1, Res.bind_ok, toStr, fromUtf8_strBytes]

/-- C07: a well framed payload fails as a string iff it is not the UTF-8 form of any string, and the
error is `NonUtf8`. -/
theorem C07_non_utf8 (v s : Bytes) (h : v.length < 2 ^ 64) :
    decString (encBytes v ++ s) = .err .nonUtf8 ↔ ¬ ∃ str, strBytes str = v := by
  unfold decString
  rw [(C07_bytes_roundtrip v s h).1, Res.bind_ok, toStr]
  cases hf : fromUtf8 v with
  | none =>
    simp only [true_iff]
    rintro ⟨str, rfl⟩
    rw [fromUtf8_strBytes] at hf; simp at hf
  | some str =>
    simp only [reduceCtorEq, false_iff]
    exact fun hn => hn ⟨str, strBytes_of_fromUtf8 hf⟩

/-- C07: a declared length larger than what remains is reported as `InsufficientData`. -/
theorem C07_length_too_large (n : Nat) (body : Bytes) (hn : n < 2 ^ 64) (h : body.length < n) :
    decBytes (encLen n ++ body) = .err .insufficientData ∧
    decString (encLen n ++ body) = .err .insufficientData := by
  have h1 : decBytes (encLen n ++ body) = .err .insufficientData := by
    unfold decBytes decPrefixed encLen
    rw [decUint_enc (by omega), Res.bind_ok, BitVec.toNat_ofNat, Nat.mod_eq_of_lt hn, if_pos h]
  exact ⟨h1, by unfold decString; rw [h1, Res.bind_err]⟩

/-- C07: whatever the input, the bytes returned are exactly the declared number of bytes following the
length prefix; nothing else is consumed. -/
theorem C07_never_over_reads (r v r' : Bytes) (h : decBytes r = .ok v r') :
    ∃ (len : BitVec 64) (pre : Bytes),
      r = pre ++ v ++ r' ∧ decUint 64 r = .ok len (v ++ r') ∧ len.toNat = v.length := by
  obtain ⟨len, r1, h1, h2, h3⟩ := decPrefixed_inv h
  simp only [Res.ok.injEq] at h3
  obtain ⟨rfl, rfl⟩ := h3
  obtain ⟨c, rfl, hc⟩ := decUint_local 64 _ _ _ h1
  refine ⟨len, c, by simp, by rw [List.take_append_drop]; exact h1, by rw [List.length_take]; omega⟩

example : decString (encString "héllo" ++ [9, 9]) = .ok "héllo" [9, 9] :=
  (C07_string_roundtrip "héllo" [9, 9] (by decide)).1
example : decBytes [5, 1, 2] = .err .insufficientData := by decide

/-! ### C08 fixed width scalars -/

/-- **C08**. One byte for `bool`, `u8`, `i8`, four for `f32`, eight for `f64`, bit exact. -/
theorem C08_fixed_roundtrip (b : Bool) (x : BitVec 8) (f : BitVec 32) (g : BitVec 64) (s : Bytes) :
    (decBool (encBool b ++ s) = .ok b s ∧ (encBool b).length = 1) ∧
    (decU8 (encU8 x ++ s) = .ok x s ∧ (encU8 x).length = 1) ∧
    (decF32 (encF32 f ++ s) = .ok f s ∧ (encF32 f).length = 4) ∧
    (decF64 (encF64 g ++ s) = .ok g s ∧ (encF64 g).length = 8) := by
  refine ⟨⟨by cases b <;> rfl, rfl⟩, ⟨rfl, rfl⟩, ⟨?_, beBytes_length _ _⟩, ⟨?_, beBytes_length _ _⟩⟩
  · have hl : (encF32 f).length = 4 := beBytes_length _ _
    unfold decF32
    rw [if_neg (by rw [List.length_append]; omega), List.take_left' hl, List.drop_left' hl]
    unfold encF32
    rw [beVal_beBytes _ _ f.isLt]
    simp
  · have hl : (encF64 g).length = 8 := beBytes_length _ _
    unfold decF64
    rw [if_neg (by rw [List.length_append]; omega), List.take_left' hl, List.drop_left' hl]
    unfold encF64
    rw [beVal_beBytes _ _ g.isLt]
    simp

/-- C08: with too few bytes each decoder reports `InsufficientData`, and only then. -/
theorem C08_insufficient (r : Bytes) :
    (decBool r = .err .insufficientData ↔ r.length < 1) ∧
    (decU8 r = .err .insufficientData ↔ r.length < 1) ∧
    (decF32 r = .err .insufficientData ↔ r.length < 4) ∧
    (decF64 r = .err .insufficientData ↔ r.length < 8) := by
  refine ⟨?_, ?_, ?_, ?_⟩
  · cases r <;> simp [decBool]
  · cases r <;> simp [decU8]
  · unfold decF32; split <;> simp_all <;> omega
  · unfold decF64; split <;> simp_all <;> omega

/-- C08: every bit pattern on the wire is accepted (NaNs with payload, negative zero, ...), and writing
the decoded float again gives the same bytes. -/
theorem C08_fixed_decode_total (a b c d : UInt8) (s : Bytes) :
    ∃ f, decF32 (a :: b :: c :: d :: s) = .ok f s ∧ encF32 f = [a, b, c, d] := by
  refine ⟨_, rfl, ?_⟩
  have ha := a.toNat_lt
  have hb := b.toNat_lt
  have hc := c.toNat_lt
  have hd := d.toNat_lt
  simp only [encF32, beVal, beBytes, List.take, List.length_cons, List.length_nil, BitVec.toNat_ofNat]
  have h8 : ∀ x y : UInt8, x.toNat = y.toNat → x = y := fun _ _ h => UInt8.toNat_inj.1 h
  simp only [List.cons.injEq, and_true]
  refine ⟨h8 _ _ ?_, h8 _ _ ?_, h8 _ _ ?_, h8 _ _ ?_⟩ <;> rw [UInt8.toNat_ofNat'] <;> omega

example : decF32 [0x7f, 0xc0, 0x00, 0x01, 5] = .ok 0x7fc00001#32 [5] := by decide
example : encU8 (BitVec.ofInt 8 (-128)) = [0x80] := by decide

/-! ### C09 options -/

/-- **C09**. `None` is one zero byte, `Some(v)` a one followed by the value; both decode back if the
element codec does. -/
theorem C09_option_roundtrip {α : Type} (enc : α → Bytes) (d : Dec α) (o : Option α) (s : Bytes)
    (h : ∀ v, o = some v → d (enc v ++ s) = .ok v s) :
    decOption d (encOption o enc ++ s) = .ok o s ∧
    encOption o enc = (match o with | none => [0] | some v => 1 :: enc v) := by
  cases o with
  | none => exact ⟨rfl, rfl⟩
  | some v =>
    refine ⟨?_, rfl⟩
    show (Res.map some (d (enc v ++ s))) = _
    rw [h v rfl, Res.map_ok]

/-- C09: any tag other than 1 means `None`, without touching the element decoder. -/
theorem C09_option_other_tag {α : Type} (d : Dec α) (tag : UInt8) (s : Bytes) (h : tag ≠ 1) :
    decOption d (tag :: s) = .ok none s := by
  have : tag.toBitVec ≠ 1#8 := by
    intro hh; apply h
    exact UInt8.toBitVec_inj.1 hh
  simp [decOption, decU8, this]

/-- C09: the announced size is exact. -/
theorem C09_option_size {α : Type} (enc : α → Bytes) (size : α → Nat) (o : Option α)
    (h : ∀ v, o = some v → size v = (enc v).length) :
    sizeOption o size = (encOption o enc).length := by
  cases o with
  | none => rfl
  | some v => simp [sizeOption, encOption, h v rfl]; omega

example : decOption (decUint 16) (encOption (some 300#16) encUint ++ [7]) = .ok (some 300#16) [7] := by decide

/-! ### C10 collections -/

/-- **C10**. `vec<T>` round trips over any faithful element codec. -/
theorem C10_vec_roundtrip {α : Type} (enc : α → Bytes) (size : α → Nat) (d : Dec α) (xs : List α)
    (s : Bytes) (hd : ∀ x ∈ xs, ∀ s, d (enc x ++ s) = .ok x s)
    (hs : ∀ x ∈ xs, size x = (enc x).length) (hne : ∀ x ∈ xs, enc x ≠ [])
    (hlen : sumSizes size xs < 2 ^ 64) : decVec d (encVec xs size enc ++ s) = .ok xs s := by
  unfold decVec encVec
  rw [sumSizes_eq_length size enc xs hs] at hlen ⊢
  rw [List.append_assoc, decPrefixed_enc _ _ _ hlen]
  unfold decWindow
  rw [decodeMany_enc d enc xs _ hd hne (Nat.le_refl _), Res.bind_ok]

/-- C10 for `hash_map<K, V>`, for every iteration order of the entries (any list with distinct keys). -/
theorem C10_hash_map_roundtrip {κ ν : Type} [DecidableEq κ] (ek : κ → Bytes) (ev : ν → Bytes)
    (sk : κ → Nat) (sv : ν → Nat) (dk : Dec κ) (dv : Dec ν) (m : List (κ × ν)) (s : Bytes)
    (hkeys : (m.map Prod.fst).Nodup)
    (hk : ∀ e ∈ m, ∀ s, dk (ek e.1 ++ s) = .ok e.1 s) (hv : ∀ e ∈ m, ∀ s, dv (ev e.2 ++ s) = .ok e.2 s)
    (hsk : ∀ e ∈ m, sk e.1 = (ek e.1).length) (hsv : ∀ e ∈ m, sv e.2 = (ev e.2).length)
    (hne : ∀ e ∈ m, ek e.1 ++ ev e.2 ≠ [])
    (hlen : sumSizes (fun e => sk e.1 + sv e.2) m < 2 ^ 64) :
    decHashMap dk dv (encHashMap m sk sv ek ev ++ s) = .ok m s := by
  unfold decHashMap encHashMap
  have hs := sumSizes_eq_length (fun e => sk e.1 + sv e.2) (fun e => ek e.1 ++ ev e.2) m
    (fun e he => by simp [hsk e he, hsv e he])
  rw [hs] at hlen ⊢
  rw [List.append_assoc, decPrefixed_enc _ _ _ hlen]
  unfold decWindow
  rw [decodeMany_enc (decEntry dk dv) (fun e : κ × ν => ek e.1 ++ ev e.2) m _
    (fun e he s => decEntry_enc dk dv ek ev e.1 e.2 (hk e he) (hv e he) s) hne (Nat.le_refl _),
    Res.bind_ok, Res.map_ok, toMap_of_nodup m hkeys]

/-- C10 for `hash_set<T>`, for every iteration order. -/
theorem C10_hash_set_roundtrip {α : Type} [DecidableEq α] (enc : α → Bytes) (size : α → Nat) (d : Dec α)
    (xs : List α) (s : Bytes) (hnd : xs.Nodup) (hd : ∀ x ∈ xs, ∀ s, d (enc x ++ s) = .ok x s)
    (hs : ∀ x ∈ xs, size x = (enc x).length) (hne : ∀ x ∈ xs, enc x ≠ [])
    (hlen : sumSizes size xs < 2 ^ 64) : decHashSet d (encHashSet xs size enc ++ s) = .ok xs s := by
  have h := C10_vec_roundtrip enc size d xs s hd hs hne hlen
  unfold decVec encVec at h
  unfold decHashSet encHashSet
  rw [h, Res.map_ok, toSet_of_nodup xs hnd]

/-- C10 for `[T; N]`. -/
theorem C10_array_roundtrip {α : Type} (enc : α → Bytes) (size : α → Nat) (d : Dec α) (xs : List α)
    (s : Bytes) (hd : ∀ x ∈ xs, ∀ s, d (enc x ++ s) = .ok x s)
    (hs : ∀ x ∈ xs, size x = (enc x).length) (hne : ∀ x ∈ xs, enc x ≠ [])
    (hlen : sumSizes size xs < 2 ^ 64) :
    decArray xs.length d (encArray xs size enc ++ s) = .ok xs s := by
  unfold decArray encArray
  rw [sumSizes_eq_length size enc xs hs] at hlen ⊢
  rw [List.append_assoc, decPrefixed_enc _ _ _ hlen]
  have := decodeUpTo_enc d enc xs hd hne []
  rw [List.append_nil] at this
  rw [this, Res.bind_ok, if_pos rfl]

/-- C10, array evolution: a larger old array decodes as a smaller new one, keeping the first `N`
elements and skipping the others. -/
theorem C10_array_shrinks {α : Type} (enc : α → Bytes) (size : α → Nat) (d : Dec α) (xs ys : List α)
    (s : Bytes) (hd : ∀ x ∈ xs, ∀ s, d (enc x ++ s) = .ok x s)
    (hs : ∀ x ∈ xs ++ ys, size x = (enc x).length) (hne : ∀ x ∈ xs, enc x ≠ [])
    (hlen : sumSizes size (xs ++ ys) < 2 ^ 64) :
    decArray xs.length d (encArray (xs ++ ys) size enc ++ s) = .ok xs s := by
  unfold decArray encArray
  rw [sumSizes_eq_length size enc _ hs] at hlen ⊢
  rw [List.append_assoc, decPrefixed_enc _ _ _ hlen, encElems_append, decodeUpTo_enc d enc xs hd hne,
    Res.bind_ok, if_pos rfl]

/-- C10: repeated keys in a hash map payload keep the last value, as map insertion does. -/
theorem C10_map_last_value_wins {κ ν : Type} [DecidableEq κ] (es : List (κ × ν)) (k : κ) :
    (toMap es).lookup k = (es.reverse).lookup k ∧ ((toMap es).map Prod.fst).Nodup := by
  have ins : ∀ (m : List (κ × ν)) (k' : κ) (v : ν),
      (mapInsert k' v m).lookup k = if k = k' then some v else m.lookup k := by
    intro m k' v
    induction m with
    | nil =>
      by_cases h : k = k'
      · simp [mapInsert, h]
      · simp [mapInsert, List.lookup, h, beq_false_of_ne h]
    | cons e m ih =>
      obtain ⟨k2, v2⟩ := e
      by_cases h2 : k2 = k'
      · subst h2
        by_cases h : k = k2
        · simp [mapInsert, h]
        · simp [mapInsert, List.lookup, h, beq_false_of_ne h]
      · simp only [mapInsert, h2, if_false]
        by_cases h : k = k2
        · subst h
          have : ¬ k = k' := h2
          simp [List.lookup, this]
        · simp [List.lookup, beq_false_of_ne h, ih]
  have key : ∀ (es acc : List (κ × ν)),
      (es.foldl (fun m e => mapInsert e.1 e.2 m) acc).lookup k = (es.reverse ++ acc).lookup k := by
    intro es
    induction es with
    | nil => intro acc; rfl
    | cons e es ih =>
      intro acc
      rw [List.foldl_cons, ih]
      have la : ∀ (a b : List (κ × ν)), (a ++ b).lookup k = (a.lookup k).or (b.lookup k) := by
        intro a b
        induction a with
        | nil => simp [List.lookup]
        | cons x a ih =>
          obtain ⟨xk, xv⟩ := x
          by_cases h : k = xk
          · simp [List.lookup, h]
          · simp [List.lookup, beq_false_of_ne h, ih]
      rw [la, la, List.reverse_cons, la, ins, Option.or_assoc]
      congr 1
      by_cases h : k = e.1
      · simp [List.lookup, h]
      · simp [List.lookup, h, beq_false_of_ne h]
  have nd : ∀ (es acc : List (κ × ν)), (acc.map Prod.fst).Nodup →
      ((es.foldl (fun m e => mapInsert e.1 e.2 m) acc).map Prod.fst).Nodup := by
    intro es
    induction es with
    | nil => intro acc h; exact h
    | cons e es ih =>
      intro acc h
      rw [List.foldl_cons]
      apply ih
      rw [mapInsert_keys_nodup]
      split
      · exact h
      · rename_i hn
        rw [List.nodup_append]
        refine ⟨h, by simp, ?_⟩
        intro a ha b hb hab
        simp at hb
        exact hn (by rw [← hb, ← hab]; exact ha)
  refine ⟨?_, nd es [] (by simp)⟩
  have := key es []
  rw [List.append_nil] at this
  exact this

example : decVec (decUint 16) (encVec [1#16, 300#16, 65535#16] sizeU encodeU ++ [1, 2]) =
    .ok [1#16, 300#16, 65535#16] [1, 2] := by
  apply C10_vec_roundtrip
  · intro x _ s; exact decUint_enc (by omega) x s
  · intro x _; exact sizeU_eq_length (by omega) x
  · intro x _ h
    have := encodeU_length_pos (w := 16) (by omega) x
    simp [h] at this
  · decide
example : decHashMap decU8 decBool (encHashMap [(3#8, true), (1#8, false)] (fun _ => 1) (fun _ => 1) encU8 encBool)
    = .ok [(3#8, true), (1#8, false)] [] := by decide
example : decArray 2 decU8 (encArray [3#8, 4#8, 5#8] (fun _ => 1) encU8 ++ [9]) = .ok [3#8, 4#8] [9] := by decide

/-! ### C11 non-zero guarantee -/

/-- **C11**. Non-zero integers are never zero. -/
theorem C11_nonzero_int {w : Nat} (d : Dec (BitVec w)) (r r' : Bytes) (v : BitVec w)
    (h : decNonZeroInt d r = .ok v r') : v ≠ 0#w ∧ d r = .ok v r' := by
  obtain ⟨a, s, h1, h2⟩ := Res.bind_eq_ok.1 h
  split at h2
  · simp at h2
  · simp only [Res.ok.injEq] at h2
    obtain ⟨rfl, rfl⟩ := h2
    exact ⟨by assumption, h1⟩

/-- C11: a zero integer gives `Error::Zero`, a non-zero one decodes. -/
theorem C11_nonzero_int_roundtrip (w : Nat) (hw : 8 ≤ w) (v : BitVec w) (s : Bytes) :
    decNonZeroInt (decUint w) (encUint v ++ s) = (if v = 0#w then .err .zero else .ok v s) ∧
    decNonZeroInt (decSint w) (encSint v ++ s) = (if v = 0#w then .err .zero else .ok v s) := by
  unfold decNonZeroInt encUint encSint
  rw [decUint_enc hw, decSint_enc hw]
  exact ⟨rfl, rfl⟩

/-- C11 for the one-byte integers. -/
theorem C11_nonzero_byte_roundtrip (v : BitVec 8) (s : Bytes) :
    decNonZeroInt decU8 (encU8 v ++ s) = if v = 0#8 then .err .zero else .ok v s := by
  unfold decNonZeroInt
  rw [((C08_fixed_roundtrip false v 0 0 s).2.1).1, Res.bind_ok]

private theorem decPrefixedNz_not_panic {β : Type} {k : Bytes → Bytes → Res β} {r : Bytes}
    (h : decPrefixedNz k r = .panic) : ∃ b t, b ≠ [] ∧ k b t = .panic := by
  unfold decPrefixedNz at h
  cases hu : decUint 64 r with
  | ok len r1 =>
    rw [hu, Res.bind_ok] at h
    split at h
    · simp at h
    · rename_i hz
      split at h
      · simp at h
      · refine ⟨_, _, ?_, h⟩
        intro he
        have hl : (r1.take len.toNat).length = 0 := by rw [he]; rfl
        rw [List.length_take] at hl
        apply hz
        apply BitVec.eq_of_toNat_eq
        simp; omega
  | err e => rw [hu] at h; simp at h
  | panic => unfold decUint at hu; split at hu <;> simp at hu
  | hang => unfold decUint at hu; split at hu <;> simp at hu

private theorem decodeMany_no_panic {α : Type} (d : Dec α) (hd : ∀ r, d r ≠ .panic) (n : Nat) (r : Bytes) :
    decodeMany d n r ≠ .panic := by
  induction n generalizing r with
  | zero => cases r <;> simp [decodeMany]
  | succ n ih =>
    cases r with
    | nil => simp [decodeMany]
    | cons b r =>
      unfold decodeMany
      cases hh : d (b :: r) with
      | ok v r' =>
        rw [Res.bind_ok]
        cases h2 : decodeMany d n r' with
        | panic => exact absurd h2 (ih r')
        | _ => simp
      | panic => exact absurd hh (hd _)
      | _ => simp

private theorem decodeMany_ne_nil {α : Type} (d : Dec α) (n : Nat) (b r' : Bytes) (xs : List α)
    (hb : b ≠ []) (h : decodeMany d n b = .ok xs r') : xs ≠ [] := by
  cases b with
  | nil => simp at hb
  | cons a b =>
    cases n with
    | zero => simp [decodeMany] at h
    | succ n =>
      unfold decodeMany at h
      obtain ⟨v, s, _, h2⟩ := Res.bind_eq_ok.1 h
      obtain ⟨ys, _, rfl⟩ := Res.map_eq_ok.1 h2
      simp

/-- C11: non-zero bytes, strings and collections are never empty. -/
theorem C11_nonzero_collections_nonempty {α κ ν : Type} [DecidableEq α] [DecidableEq κ] (d : Dec α)
    (dk : Dec κ) (dv : Dec ν) (r r' : Bytes) :
    (∀ v, decNonZeroBytes r = .ok v r' → v ≠ []) ∧
    (∀ v, decNonZeroString r = .ok v r' → v ≠ "") ∧
    (∀ v, decNonZeroVec d r = .ok v r' → v ≠ []) ∧
    (∀ v, decNonZeroHashMap dk dv r = .ok v r' → v ≠ []) ∧
    (∀ v, decNonZeroHashSet d r = .ok v r' → v ≠ []) := by
  have unwrap : ∀ {β : Type} {xs ys : List β} {s s' : Bytes}, nzUnwrap xs s = .ok ys s' → ys ≠ [] := by
    intro β xs ys s s' h
    unfold nzUnwrap at h
    split at h
    · simp at h
    · rename_i hh
      simp only [Res.ok.injEq] at h
      obtain ⟨rfl, rfl⟩ := h
      intro he; subst he; simp at hh
  refine ⟨?_, ?_, ?_, ?_, ?_⟩
  · intro v h
    obtain ⟨len, r1, _, _, _, h2⟩ := decPrefixedNz_inv h
    exact unwrap h2
  · intro v h
    obtain ⟨bs, s, _, h2⟩ := Res.bind_eq_ok.1 h
    split at h2
    · split at h2
      · simp at h2
      · rename_i hh
        simp only [Res.ok.injEq] at h2
        obtain ⟨rfl, rfl⟩ := h2
        intro he; subst he; simp at hh
    · simp at h2
  · intro v h
    obtain ⟨_, _, _, h2⟩ := Res.bind_eq_ok.1 h
    exact unwrap h2
  · intro v h
    obtain ⟨_, _, _, h2⟩ := Res.bind_eq_ok.1 h
    exact unwrap h2
  · intro v h
    obtain ⟨_, _, _, h2⟩ := Res.bind_eq_ok.1 h
    exact unwrap h2

private theorem decWindow_nonempty {α : Type} {d : Dec α} {r r' : Bytes} {xs : List α}
    (h : decPrefixedNz (decWindow d) r = .ok xs r') : xs ≠ [] := by
  obtain ⟨len, r1, h1, hle, hz, h2⟩ := decPrefixedNz_inv h
  unfold decWindow at h2
  obtain ⟨ys, t, h3, h4⟩ := Res.bind_eq_ok.1 h2
  simp only [Res.ok.injEq] at h4
  obtain ⟨rfl, rfl⟩ := h4
  refine decodeMany_ne_nil d _ _ _ _ ?_ h3
  intro he
  have hl : (r1.take len.toNat).length = 0 := by rw [he]; rfl
  rw [List.length_take] at hl
  apply hz
  apply BitVec.eq_of_toNat_eq
  simp; omega

private theorem decWindow_no_panic {α : Type} {d : Dec α} (hd : ∀ r, d r ≠ .panic) (r : Bytes) :
    decPrefixedNz (decWindow d) r ≠ .panic := by
  intro h
  obtain ⟨b, t, _, h2⟩ := decPrefixedNz_not_panic h
  unfold decWindow at h2
  have := decodeMany_no_panic d hd b.length b
  cases hh : decodeMany d b.length b <;> simp_all

/-- C11: the `unwrap`s of the non-zero decoders never fire: if the element decoders do not panic,
neither do the non-zero collection decoders (bytes and strings never do). -/
theorem C11_nonzero_never_panics {α κ ν : Type} [DecidableEq α] [DecidableEq κ] (d : Dec α)
    (dk : Dec κ) (dv : Dec ν) (hd : ∀ r, d r ≠ .panic) (hk : ∀ r, dk r ≠ .panic)
    (hv : ∀ r, dv r ≠ .panic) (r : Bytes) :
    decNonZeroBytes r ≠ .panic ∧ decNonZeroString r ≠ .panic ∧ decNonZeroVec d r ≠ .panic ∧
    decNonZeroHashMap dk dv r ≠ .panic ∧ decNonZeroHashSet d r ≠ .panic := by
  have he : ∀ r, decEntry dk dv r ≠ .panic := by
    intro r
    unfold decEntry
    cases h1 : dk r with
    | ok a s =>
      rw [Res.bind_ok]
      cases h2 : dv s with
      | panic => exact absurd h2 (hv s)
      | _ => simp
    | panic => exact absurd h1 (hk r)
    | _ => simp
  have hb : decNonZeroBytes r ≠ .panic := by
    intro h
    obtain ⟨b, t, hne, h2⟩ := decPrefixedNz_not_panic h
    unfold nzUnwrap at h2
    split at h2
    · rename_i hh; exact hne (by simpa using hh)
    · simp at h2
  have fin : ∀ {β γ : Type} (x : Res (List β)) (f : List β → List γ),
      x ≠ .panic → (∀ xs s, x = .ok xs s → f xs ≠ []) →
      (x.bind fun xs s => nzUnwrap (f xs) s) ≠ .panic := by
    intro β γ x f hx hf
    cases x with
    | ok xs s =>
      rw [Res.bind_ok]
      unfold nzUnwrap
      split
      · rename_i hh
        exact absurd (by simpa using hh) (hf xs s rfl)
      · simp
    | panic => exact absurd rfl hx
    | _ => simp
  refine ⟨hb, ?_, ?_, ?_, ?_⟩
  · unfold decNonZeroString
    cases hx : decNonZeroBytes r with
    | ok bs s =>
      rw [Res.bind_ok]
      split
      · rename_i str hs
        split
        · rename_i hem
          exfalso
          have h1 := (C11_nonzero_collections_nonempty decU8 decU8 decU8 r s).1 bs hx
          have h2 := strBytes_of_fromUtf8 hs
          have h3 : str = "" := by simpa using hem
          apply h1
          rw [← h2, h3]
          rfl
        · simp
      · simp
    | panic => exact absurd hx hb
    | _ => simp
  · exact fin _ id (decWindow_no_panic hd r) fun xs s h => decWindow_nonempty h
  · exact fin _ toMap (decWindow_no_panic he r) fun xs s h => toMap_ne_nil _ (decWindow_nonempty h)
  · exact fin _ toSet (decWindow_no_panic hd r) fun xs s h => toSet_ne_nil _ (decWindow_nonempty h)

/-- C11: the encoding of an empty string, byte array or collection gives `Error::Zero`, whatever
follows. -/
theorem C11_empty_gives_zero {α κ ν : Type} [DecidableEq α] [DecidableEq κ] (d : Dec α)
    (dk : Dec κ) (dv : Dec ν) (enc : α → Bytes) (size : α → Nat) (ek : κ → Bytes) (ev : ν → Bytes)
    (sk : κ → Nat) (sv : ν → Nat) (s : Bytes) :
    decNonZeroBytes (encBytes [] ++ s) = .err .zero ∧
    decNonZeroString (encString "" ++ s) = .err .zero ∧
    decNonZeroVec d (encVec [] size enc ++ s) = .err .zero ∧
    decNonZeroHashMap dk dv (encHashMap [] sk sv ek ev ++ s) = .err .zero ∧
    decNonZeroHashSet d (encHashSet [] size enc ++ s) = .err .zero := by
  have h0 : encLen 0 = [0] := by decide
  have hz : ∀ {β : Type} (k : Bytes → Bytes → Res β), decPrefixedNz k (0 :: s) = .err .zero := by
    intro β k
    exact decPrefixedNz_enc k [] s (by decide)
  refine ⟨hz _, ?_, ?_, ?_, ?_⟩
  · show (decPrefixedNz _ (0 :: s)).bind _ = _
    rw [hz, Res.bind_err]
  · have : encVec [] size enc ++ s = 0 :: s := by simp [encVec, sumSizes, encElems, h0]
    rw [this, decNonZeroVec, hz, Res.bind_err]
  · have : encHashMap [] sk sv ek ev ++ s = 0 :: s := by simp [encHashMap, sumSizes, encElems, h0]
    rw [this, decNonZeroHashMap, hz, Res.bind_err]
  · have : encHashSet [] size enc ++ s = 0 :: s := by simp [encHashSet, sumSizes, encElems, h0]
    rw [this, decNonZeroHashSet, hz, Res.bind_err]

/-- C11: on the same input the non-zero decoders accept exactly the non-empty values of the plain
decoders. -/
theorem C11_nonzero_agrees_with_plain {α : Type} (d : Dec α) (r r' : Bytes) (xs : List α) :
    (decNonZeroVec d r = .ok xs r' ↔ decVec d r = .ok xs r' ∧ xs ≠ []) := by
  constructor
  · intro h
    refine ⟨?_, ?_⟩
    · obtain ⟨a, t, h1, h2⟩ := Res.bind_eq_ok.1 h
      obtain ⟨len, r1, h3, h4, h5, h6⟩ := decPrefixedNz_inv h1
      unfold nzUnwrap at h2
      split at h2
      · simp at h2
      · simp only [Res.ok.injEq] at h2
        obtain ⟨rfl, rfl⟩ := h2
        unfold decVec decPrefixed
        rw [h3, Res.bind_ok, if_neg (by omega), h6]
    · obtain ⟨a, t, h1, h2⟩ := Res.bind_eq_ok.1 h
      unfold nzUnwrap at h2
      split at h2
      · simp at h2
      · rename_i hh
        simp only [Res.ok.injEq] at h2
        obtain ⟨rfl, rfl⟩ := h2
        intro he; subst he; simp at hh
  · rintro ⟨h, hne⟩
    obtain ⟨len, r1, h3, h4, h6⟩ := decPrefixed_inv h
    unfold decNonZeroVec decPrefixedNz
    have hz : len ≠ 0#64 := by
      rintro rfl
      simp [decWindow, decodeMany] at h6
      exact hne h6.1
    rw [h3, Res.bind_ok, if_neg hz, if_neg (by omega), h6, Res.bind_ok]
    unfold nzUnwrap
    rw [if_neg (by simpa using hne)]

example : decNonZeroVec decU8 [2, 7, 8, 1] = .ok [7#8, 8#8] [1] := by decide
example : decNonZeroVec decU8 [0, 7] = .err .zero := by decide

/-! ### C22 windows -/

/-- **C22**. Everything an element decoder does is confined to the declared window: for *any* element
decoder the outcome is the one on the window alone, and what follows the window is handed back
untouched. -/
theorem C22_window_confines {α κ ν : Type} [DecidableEq α] [DecidableEq κ] (d : Dec α) (dk : Dec κ)
    (dv : Dec ν) (n : Nat) (body s : Bytes) (h : body.length < 2 ^ 64) :
    let msg := encLen body.length ++ body
    decVec d (msg ++ s) = (decVec d msg).bind (fun v _ => .ok v s) ∧
    decHashMap dk dv (msg ++ s) = (decHashMap dk dv msg).bind (fun v _ => .ok v s) ∧
    decHashSet d (msg ++ s) = (decHashSet d msg).bind (fun v _ => .ok v s) ∧
    decArray n d (msg ++ s) = (decArray n d msg).bind (fun v _ => .ok v s) ∧
    decNonZeroVec d (msg ++ s) = (decNonZeroVec d msg).bind (fun v _ => .ok v s) ∧
    decNonZeroHashMap dk dv (msg ++ s) = (decNonZeroHashMap dk dv msg).bind (fun v _ => .ok v s) ∧
    decNonZeroHashSet d (msg ++ s) = (decNonZeroHashSet d msg).bind (fun v _ => .ok v s) := by
  intro msg
  have e1 : ∀ {β : Type} (k : Bytes → Bytes → Res β) (t : Bytes), decPrefixed k (msg ++ t) = k body t :=
    fun k t => by rw [List.append_assoc]; exact decPrefixed_enc k body t h
  have e1' : ∀ {β : Type} (k : Bytes → Bytes → Res β), decPrefixed k msg = k body [] := by
    intro β k; have := e1 k []; rwa [List.append_nil] at this
  have e2 : ∀ {β : Type} (k : Bytes → Bytes → Res β) (t : Bytes), decPrefixedNz k (msg ++ t) =
      if body = [] then .err .zero else k body t :=
    fun k t => by rw [List.append_assoc]; exact decPrefixedNz_enc k body t h
  have e2' : ∀ {β : Type} (k : Bytes → Bytes → Res β), decPrefixedNz k msg =
      if body = [] then .err .zero else k body [] := by
    intro β k; have := e2 k []; rwa [List.append_nil] at this
  refine ⟨?_, ?_, ?_, ?_, ?_, ?_, ?_⟩
  · unfold decVec; rw [e1, e1']; unfold decWindow
    cases decodeMany d body.length body <;> rfl
  · unfold decHashMap; rw [e1, e1']; unfold decWindow
    cases decodeMany (decEntry dk dv) body.length body <;> rfl
  · unfold decHashSet; rw [e1, e1']; unfold decWindow
    cases decodeMany d body.length body <;> rfl
  · unfold decArray; rw [e1, e1']
    cases decodeUpTo d n body with
    | ok xs r => simp only [Res.bind_ok]; split <;> rfl
    | _ => rfl
  · unfold decNonZeroVec; rw [e2, e2']; unfold decWindow
    split
    · rfl
    · cases decodeMany d body.length body with
      | ok xs r => simp only [Res.bind_ok, nzUnwrap]; split <;> rfl
      | _ => rfl
  · unfold decNonZeroHashMap; rw [e2, e2']; unfold decWindow
    split
    · rfl
    · cases decodeMany (decEntry dk dv) body.length body with
      | ok xs r => simp only [Res.bind_ok, nzUnwrap]; split <;> rfl
      | _ => rfl
  · unfold decNonZeroHashSet; rw [e2, e2']; unfold decWindow
    split
    · rfl
    · cases decodeMany d body.length body with
      | ok xs r => simp only [Res.bind_ok, nzUnwrap]; split <;> rfl
      | _ => rfl

/-- C22, for arbitrary input: on success exactly the declared number of bytes after the length prefix
was used. -/
theorem C22_consumes_declared_length {α : Type} (d : Dec α) (n : Nat) (r r' : Bytes) (xs : List α)
    (h : decVec d r = .ok xs r' ∨ decArray n d r = .ok xs r') :
    ∃ (len : BitVec 64) (pre body : Bytes), r = pre ++ body ++ r' ∧
      decUint 64 r = .ok len (body ++ r') ∧ body.length = len.toNat := by
  have key : ∀ k : Bytes → Bytes → Res (List α), (∀ b t v t', k b t = .ok v t' → t' = t) →
      decPrefixed k r = .ok xs r' → ∃ (len : BitVec 64) (pre body : Bytes), r = pre ++ body ++ r' ∧
      decUint 64 r = .ok len (body ++ r') ∧ body.length = len.toNat := by
    intro k hk h
    obtain ⟨len, r1, h1, h2, h3⟩ := decPrefixed_inv h
    obtain ⟨c, rfl, hc⟩ := decUint_local 64 _ _ _ h1
    have := hk _ _ _ _ h3
    subst this
    refine ⟨len, c, r1.take len.toNat, by simp, by rw [List.take_append_drop]; exact h1,
      by rw [List.length_take]; omega⟩
  rcases h with h | h
  · refine key _ ?_ h
    intro b t v t' hk
    obtain ⟨_, _, _, h2⟩ := Res.bind_eq_ok.1 hk
    simp only [Res.ok.injEq] at h2
    exact h2.2.symm
  · refine key _ ?_ h
    intro b t v t' hk
    obtain ⟨_, _, _, h2⟩ := Res.bind_eq_ok.1 hk
    split at h2
    · simp only [Res.ok.injEq] at h2
      exact h2.2.symm
    · simp at h2

/-- C22: a varint running over the end of the window fails although the outer data would complete it. -/
example : decVec (decUint 32) ([1] ++ [0x80] ++ [0x01]) = .err .decodeInt := by decide

end Mabo.Props
