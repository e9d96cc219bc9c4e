import Verif.Buf
import Verif.VarintLemmas
import Verif.ZigzagLemmas
/-! Helper lemmas about the buffer layer. -/
namespace Mabo.Buf
open Mabo.Varint

@[simp] theorem Res.bind_ok {α β : Type} (v : α) (r : Bytes) (k : α → Bytes → Res β) :
    (Res.ok v r).bind k = k v r := rfl
@[simp] theorem Res.bind_err {α β : Type} (e : Error) (k : α → Bytes → Res β) :
    (Res.err e : Res α).bind k = .err e := rfl
@[simp] theorem Res.bind_panic {α β : Type} (k : α → Bytes → Res β) :
    (Res.panic : Res α).bind k = .panic := rfl
@[simp] theorem Res.bind_hang {α β : Type} (k : α → Bytes → Res β) :
    (Res.hang : Res α).bind k = .hang := rfl
@[simp] theorem Res.map_ok {α β : Type} (f : α → β) (v : α) (r : Bytes) :
    (Res.ok v r).map f = .ok (f v) r := rfl
@[simp] theorem Res.map_err {α β : Type} (f : α → β) (e : Error) :
    (Res.err e : Res α).map f = .err e := rfl
@[simp] theorem Res.map_panic {α β : Type} (f : α → β) : (Res.panic : Res α).map f = .panic := rfl
@[simp] theorem Res.map_hang {α β : Type} (f : α → β) : (Res.hang : Res α).map f = .hang := rfl

theorem Res.bind_eq_ok {α β : Type} {x : Res α} {k : α → Bytes → Res β} {v : β} {r : Bytes} :
    x.bind k = .ok v r ↔ ∃ a s, x = .ok a s ∧ k a s = .ok v r := by
  cases x with
  | ok a s =>
    constructor
    · intro h; exact ⟨a, s, rfl, h⟩
    · rintro ⟨a', s', h1, h2⟩
      simp only [Res.ok.injEq] at h1
      obtain ⟨rfl, rfl⟩ := h1
      exact h2
  | err e => simp
  | panic => simp
  | hang => simp

theorem Res.map_eq_ok {α β : Type} {x : Res α} {f : α → β} {v : β} {r : Bytes} :
    x.map f = .ok v r ↔ ∃ a, x = .ok a r ∧ f a = v := by
  cases x with
  | ok a s =>
    simp only [Res.map_ok, Res.ok.injEq]
    constructor
    · rintro ⟨rfl, rfl⟩; exact ⟨a, ⟨rfl, rfl⟩, rfl⟩
    · rintro ⟨_, ⟨rfl, rfl⟩, rfl⟩; exact ⟨rfl, rfl⟩
  | err e => simp
  | panic => simp
  | hang => simp

/-! ### integers -/

theorem decUint_enc {w : Nat} (hw : 8 ≤ w) (v : BitVec w) (s : Bytes) :
    decUint w (encodeU v ++ s) = .ok v s := by
  simp [decUint, decodeU_encodeU hw]

theorem decSint_enc {w : Nat} (hw : 8 ≤ w) (v : BitVec w) (s : Bytes) :
    decSint w (encodeI v ++ s) = .ok v s := by
  have : decodeI w (encodeI v ++ s) = some (v, (encodeI v).length) := by
    unfold decodeI encodeI
    rw [decodeU_encodeU hw, Option.map_some, zigzagDecode_encode (by omega)]
  simp [decSint, this]

theorem encLen_length (n : Nat) : (encLen n).length = sizeLen n :=
  (sizeU_eq_length (by omega) _).symm

theorem encLen_ne_nil (n : Nat) : encLen n ≠ [] := by
  have := encodeU_length_pos (w := 64) (by omega) (BitVec.ofNat 64 n)
  intro h
  unfold encLen at h
  rw [h] at this
  simp at this

theorem encodeI_length_pos {w : Nat} (hw : 8 ≤ w) (v : BitVec w) : 0 < (encodeI v).length :=
  encodeU_length_pos hw _

theorem decPrefixed_enc {β : Type} (k : Bytes → Bytes → Res β) (body s : Bytes)
    (h : body.length < 2 ^ 64) :
    decPrefixed k (encLen body.length ++ (body ++ s)) = k body s := by
  have hn : (BitVec.ofNat 64 body.length).toNat = body.length := by
    rw [BitVec.toNat_ofNat, Nat.mod_eq_of_lt h]
  unfold decPrefixed encLen
  rw [decUint_enc (by omega), Res.bind_ok, hn, if_neg (by simp)]
  simp

theorem decPrefixedNz_enc {β : Type} (k : Bytes → Bytes → Res β) (body s : Bytes)
    (h : body.length < 2 ^ 64) :
    decPrefixedNz k (encLen body.length ++ (body ++ s)) =
      if body = [] then .err .zero else k body s := by
  have hn : (BitVec.ofNat 64 body.length).toNat = body.length := by
    rw [BitVec.toNat_ofNat, Nat.mod_eq_of_lt h]
  have hz : BitVec.ofNat 64 body.length = 0#64 ↔ body = [] := by
    rw [← BitVec.toNat_inj, hn]; simp
  unfold decPrefixedNz encLen
  rw [decUint_enc (by omega), Res.bind_ok, hn]
  simp only [hz]
  rw [if_neg (show ¬ (body ++ s).length < body.length by simp)]
  simp

/-! ### strings -/

theorem fromUtf8_strBytes (s : String) : fromUtf8 (strBytes s) = some s := by
  unfold fromUtf8 strBytes
  have hb : (⟨(s.toByteArray.data.toList).toArray⟩ : ByteArray) = s.toByteArray := by
    simp
  rw [hb]
  unfold String.fromUTF8?
  rw [dif_pos s.isValidUTF8]
  rfl

theorem strBytes_of_fromUtf8 {bs : Bytes} {s : String} (h : fromUtf8 bs = some s) : strBytes s = bs := by
  unfold fromUtf8 String.fromUTF8? at h
  split at h
  · simp only [Option.some.injEq] at h
    subst h
    unfold strBytes String.fromUTF8
    rfl
  · simp at h

/-! ### loops -/

theorem encElems_append {α : Type} (enc : α → Bytes) (xs ys : List α) :
    encElems enc (xs ++ ys) = encElems enc xs ++ encElems enc ys := by
  induction xs with
  | nil => rfl
  | cons x xs ih => simp [encElems, ih]

theorem sumSizes_eq_length {α : Type} (size : α → Nat) (enc : α → Bytes) (xs : List α)
    (h : ∀ x ∈ xs, size x = (enc x).length) : sumSizes size xs = (encElems enc xs).length := by
  induction xs with
  | nil => rfl
  | cons x xs ih =>
    simp only [List.mem_cons, forall_eq_or_imp] at h
    simp [sumSizes, encElems, h.1, ih h.2]

theorem decodeMany_enc {α : Type} (d : Dec α) (enc : α → Bytes) (xs : List α) (n : Nat)
    (hd : ∀ x ∈ xs, ∀ s, d (enc x ++ s) = .ok x s) (hne : ∀ x ∈ xs, enc x ≠ [])
    (hn : (encElems enc xs).length ≤ n) : decodeMany d n (encElems enc xs) = .ok xs [] := by
  induction xs generalizing n with
  | nil => cases n <;> rfl
  | cons x xs ih =>
    simp only [List.mem_cons, forall_eq_or_imp] at hd hne
    have hx := List.length_pos_iff.2 hne.1
    simp only [encElems, List.length_append] at hn
    obtain ⟨n, rfl⟩ : ∃ m, n = m + 1 := ⟨n - 1, by omega⟩
    simp only [encElems]
    obtain ⟨b, r, hbr⟩ : ∃ b r, enc x ++ encElems enc xs = b :: r := by
      match hh : enc x, hne.1 with
      | b :: r, _ => exact ⟨b, r ++ encElems enc xs, rfl⟩
    rw [hbr, decodeMany, ← hbr, hd.1, Res.bind_ok, ih n hd.2 hne.2 (by omega), Res.map_ok]

theorem decodeUpTo_enc {α : Type} (d : Dec α) (enc : α → Bytes) (xs : List α)
    (hd : ∀ x ∈ xs, ∀ s, d (enc x ++ s) = .ok x s) (hne : ∀ x ∈ xs, enc x ≠ []) (s : Bytes) :
    decodeUpTo d xs.length (encElems enc xs ++ s) = .ok xs s := by
  induction xs with
  | nil => rfl
  | cons x xs ih =>
    simp only [List.mem_cons, forall_eq_or_imp] at hd hne
    simp only [encElems, List.append_assoc, List.length_cons]
    obtain ⟨b, r, hbr⟩ : ∃ b r, enc x ++ (encElems enc xs ++ s) = b :: r := by
      match hh : enc x, hne.1 with
      | b :: r, _ => exact ⟨b, _, rfl⟩
    rw [hbr, decodeUpTo, ← hbr, hd.1, Res.bind_ok, ih hd.2 hne.2, Res.map_ok]

theorem decEntry_enc {κ ν : Type} (dk : Dec κ) (dv : Dec ν) (ek : κ → Bytes) (ev : ν → Bytes)
    (k : κ) (v : ν) (hk : ∀ s, dk (ek k ++ s) = .ok k s) (hv : ∀ s, dv (ev v ++ s) = .ok v s)
    (s : Bytes) : decEntry dk dv ((ek k ++ ev v) ++ s) = .ok (k, v) s := by
  simp [decEntry, hk, hv]

/-! ### hash containers -/

theorem mapInsert_of_not_mem {κ ν : Type} [DecidableEq κ] (k : κ) (v : ν) (m : List (κ × ν))
    (h : k ∉ m.map Prod.fst) : mapInsert k v m = m ++ [(k, v)] := by
  induction m with
  | nil => rfl
  | cons e m ih =>
    simp only [List.map_cons, List.mem_cons, not_or] at h
    simp [mapInsert, Ne.symm h.1, ih h.2]

theorem foldl_mapInsert {κ ν : Type} [DecidableEq κ] (es acc : List (κ × ν))
    (h : ((acc ++ es).map Prod.fst).Nodup) :
    es.foldl (fun m e => mapInsert e.1 e.2 m) acc = acc ++ es := by
  induction es generalizing acc with
  | nil => simp
  | cons e es ih =>
    have hn : e.1 ∉ acc.map Prod.fst := by
      intro hm
      rw [List.map_append, List.nodup_append] at h
      exact h.2.2 _ hm _ (by simp) rfl
    rw [List.foldl_cons, mapInsert_of_not_mem _ _ _ hn, ih]
    · simp
    · simpa using h

theorem toMap_of_nodup {κ ν : Type} [DecidableEq κ] (es : List (κ × ν))
    (h : (es.map Prod.fst).Nodup) : toMap es = es := by
  have := foldl_mapInsert es [] (by simpa using h)
  simpa [toMap] using this

theorem foldl_setInsert {α : Type} [DecidableEq α] (xs acc : List α) (h : (acc ++ xs).Nodup) :
    xs.foldl (fun s x => setInsert x s) acc = acc ++ xs := by
  induction xs generalizing acc with
  | nil => simp
  | cons x xs ih =>
    have hn : x ∉ acc := by
      intro hm
      rw [List.nodup_append] at h
      exact h.2.2 _ hm _ (by simp) rfl
    rw [List.foldl_cons, setInsert, if_neg hn, ih]
    · simp
    · simpa using h

theorem toSet_of_nodup {α : Type} [DecidableEq α] (xs : List α) (h : xs.Nodup) : toSet xs = xs := by
  have := foldl_setInsert xs [] (by simpa using h)
  simpa [toSet] using this

theorem mapInsert_keys_nodup {κ ν : Type} [DecidableEq κ] (k : κ) (v : ν) (m : List (κ × ν)) :
    (mapInsert k v m).map Prod.fst = if k ∈ m.map Prod.fst then m.map Prod.fst
      else m.map Prod.fst ++ [k] := by
  induction m with
  | nil => rfl
  | cons e m ih =>
    by_cases h : e.1 = k
    · simp [mapInsert, h]
    · have h' : ¬ k = e.1 := fun hh => h hh.symm
      simp only [mapInsert, h, if_false, List.map_cons, ih, List.mem_cons, h', false_or]
      split <;> simp

theorem toMap_ne_nil {κ ν : Type} [DecidableEq κ] (es : List (κ × ν)) (h : es ≠ []) : toMap es ≠ [] := by
  have key : ∀ (es acc : List (κ × ν)), acc ≠ [] →
      es.foldl (fun m e => mapInsert e.1 e.2 m) acc ≠ [] := by
    intro es
    induction es with
    | nil => simp
    | cons e es ih =>
      intro acc hacc
      rw [List.foldl_cons]
      apply ih
      cases acc with
      | nil => simp at hacc
      | cons a acc => unfold mapInsert; split <;> simp
  cases es with
  | nil => simp at h
  | cons e es => exact key es _ (by simp [mapInsert])

theorem toSet_ne_nil {α : Type} [DecidableEq α] (xs : List α) (h : xs ≠ []) : toSet xs ≠ [] := by
  have key : ∀ (xs acc : List α), acc ≠ [] →
      xs.foldl (fun s x => setInsert x s) acc ≠ [] := by
    intro xs
    induction xs with
    | nil => simp
    | cons x xs ih =>
      intro acc hacc
      rw [List.foldl_cons]
      apply ih
      unfold setInsert
      split
      · exact hacc
      · simp
  cases xs with
  | nil => simp at h
  | cons e es => exact key es _ (by simp [setInsert])

/-! ### inversion of decoders -/

/-- `d` consumes a prefix, and neither its value nor the consumed prefix depends on what follows. -/
def Local {α : Type} (d : Dec α) : Prop :=
  ∀ r v r', d r = .ok v r' → ∃ c, r = c ++ r' ∧ ∀ s, d (c ++ s) = .ok v s

theorem decodeU_local {w : Nat} {r : Bytes} {v : BitVec w} {n : Nat}
    (h : decodeU w r = some (v, n)) :
    n ≤ r.length ∧ 0 < n ∧ ∀ s, decodeU w (r.take n ++ s) = some (v, n) := by
  rw [decodeU_spec, Option.map_eq_some_iff] at h
  obtain ⟨k, hk, he⟩ := h
  simp only [Prod.mk.injEq] at he
  obtain ⟨hv, rfl⟩ := he
  obtain ⟨hlt, h1, h2⟩ := List.findIdx?_eq_some_iff_getElem.1 hk
  have hlt' : k < r.length ∧ k < maxSize w := by
    rw [List.length_take] at hlt; omega
  refine ⟨by omega, by omega, fun s => ?_⟩
  rw [decodeU_spec, Option.map_eq_some_iff]
  refine ⟨k, ?_, ?_⟩
  · rw [List.findIdx?_eq_some_iff_getElem]
    refine ⟨by simp [List.length_take]; omega, ?_, ?_⟩
    · have hk' : k < (r.take (k + 1)).length := by rw [List.length_take]; omega
      simp only [List.getElem_take, List.getElem_append_left hk']
      simpa using h1
    · intro j hj
      have := h2 j hj
      have hk' : j < (r.take (k + 1)).length := by rw [List.length_take]; omega
      simp only [List.getElem_take, List.getElem_append_left hk']
      simpa using this
  · simp only [Prod.mk.injEq, and_true]
    rw [List.take_append_of_le_length (by rw [List.length_take]; omega), List.take_take, Nat.min_self, hv]

theorem decUint_local (w : Nat) : Local (decUint w) := by
  intro r v r' h
  unfold decUint at h
  split at h
  · simp at h
  · rename_i u n hn
    simp only [Res.ok.injEq] at h
    obtain ⟨rfl, rfl⟩ := h
    obtain ⟨h1, _, h2⟩ := decodeU_local hn
    refine ⟨r.take n, (List.take_append_drop _ _).symm, fun s => ?_⟩
    unfold decUint
    rw [h2 s]
    simp [List.drop_left' (show (r.take n).length = n by rw [List.length_take]; omega)]

theorem decUint_consumes {w : Nat} {r : Bytes} {v : BitVec w} {r' : Bytes}
    (h : decUint w r = .ok v r') : r'.length < r.length := by
  unfold decUint at h
  split at h
  · simp at h
  · rename_i u n hn
    simp only [Res.ok.injEq] at h
    obtain ⟨rfl, rfl⟩ := h
    obtain ⟨h1, h0, _⟩ := decodeU_local hn
    rw [List.length_drop]; omega

theorem decSint_eq (w : Nat) (r : Bytes) : decSint w r = (decUint w r).map zigzagDecode := by
  unfold decSint decUint decodeI
  cases decodeU w r <;> rfl

theorem Local.map {α β : Type} {d : Dec α} (h : Local d) (f : α → β) :
    Local (fun r => (d r).map f) := by
  intro r v r' hr
  obtain ⟨a, ha, rfl⟩ := Res.map_eq_ok.1 hr
  obtain ⟨c, rfl, hc⟩ := h _ _ _ ha
  exact ⟨c, rfl, fun s => by simp [hc s]⟩

theorem decSint_local (w : Nat) : Local (decSint w) := by
  have : decSint w = fun r => (decUint w r).map zigzagDecode := funext (decSint_eq w)
  rw [this]
  exact (decUint_local w).map _

theorem Local.bind {α β : Type} {d : Dec α} {k : α → Dec β} (h : Local d) (hk : ∀ a, Local (k a)) :
    Local (fun r => (d r).bind k) := by
  intro r v r' hr
  obtain ⟨a, r1, h1, h2⟩ := Res.bind_eq_ok.1 hr
  obtain ⟨c1, rfl, hc1⟩ := h _ _ _ h1
  obtain ⟨c2, rfl, hc2⟩ := hk _ _ _ _ h2
  exact ⟨c1 ++ c2, by simp, fun s => by simp [hc1, hc2]⟩

theorem Local.ok {α : Type} (v : α) : Local (fun r => .ok v r) := by
  intro r v' r' h
  simp only [Res.ok.injEq] at h
  obtain ⟨rfl, rfl⟩ := h
  exact ⟨[], rfl, fun _ => rfl⟩

theorem Local.err {α : Type} (e : Error) : Local (fun _ => (.err e : Res α)) := by
  intro r v' r' h; simp at h

theorem Local.panic {α : Type} : Local (fun _ => (.panic : Res α)) := by
  intro r v' r' h; simp at h

theorem Local.hang {α : Type} : Local (fun _ => (.hang : Res α)) := by
  intro r v' r' h; simp at h

/-- A window continuation: the result depends only on the window, the remainder is passed on. -/
def Windowed {β : Type} (k : Bytes → Bytes → Res β) : Prop :=
  ∃ f : Bytes → Res β, ∀ body rest, k body rest = (f body).bind fun v _ => .ok v rest

theorem decPrefixed_inv {β : Type} {k : Bytes → Bytes → Res β} {r : Bytes} {v : β} {r' : Bytes}
    (h : decPrefixed k r = .ok v r') :
    ∃ (len : BitVec 64) (r1 : Bytes), decUint 64 r = .ok len r1 ∧ len.toNat ≤ r1.length ∧
      k (r1.take len.toNat) (r1.drop len.toNat) = .ok v r' := by
  unfold decPrefixed at h
  obtain ⟨len, r1, h1, h2⟩ := Res.bind_eq_ok.1 h
  split at h2
  · simp at h2
  · exact ⟨len, r1, h1, by omega, h2⟩

theorem decPrefixedNz_inv {β : Type} {k : Bytes → Bytes → Res β} {r : Bytes} {v : β} {r' : Bytes}
    (h : decPrefixedNz k r = .ok v r') :
    ∃ (len : BitVec 64) (r1 : Bytes), decUint 64 r = .ok len r1 ∧ len.toNat ≤ r1.length ∧
      len ≠ 0#64 ∧ k (r1.take len.toNat) (r1.drop len.toNat) = .ok v r' := by
  unfold decPrefixedNz at h
  obtain ⟨len, r1, h1, h2⟩ := Res.bind_eq_ok.1 h
  split at h2
  · simp at h2
  · split at h2
    · simp at h2
    · exact ⟨len, r1, h1, by omega, by assumption, h2⟩

theorem decPrefixed_local {β : Type} {k : Bytes → Bytes → Res β} (hk : Windowed k) :
    Local (decPrefixed k) := by
  obtain ⟨f, hf⟩ := hk
  intro r v r' h
  obtain ⟨len, r1, h1, hle, h2⟩ := decPrefixed_inv h
  obtain ⟨c, rfl, hc⟩ := decUint_local 64 _ _ _ h1
  rw [hf] at h2
  obtain ⟨a, t, ha, hb⟩ := Res.bind_eq_ok.1 h2
  simp only [Res.ok.injEq] at hb
  obtain ⟨rfl, rfl⟩ := hb
  refine ⟨c ++ r1.take len.toNat, by simp, fun s => ?_⟩
  have hl : (r1.take len.toNat).length = len.toNat := by rw [List.length_take]; omega
  unfold decPrefixed
  rw [List.append_assoc, hc, Res.bind_ok, if_neg (by rw [List.length_append]; omega),
    List.take_left' hl, List.drop_left' hl, hf, ha, Res.bind_ok]

theorem decPrefixedNz_local {β : Type} {k : Bytes → Bytes → Res β} (hk : Windowed k) :
    Local (decPrefixedNz k) := by
  obtain ⟨f, hf⟩ := hk
  intro r v r' h
  obtain ⟨len, r1, h1, hle, hz, h2⟩ := decPrefixedNz_inv h
  obtain ⟨c, rfl, hc⟩ := decUint_local 64 _ _ _ h1
  rw [hf] at h2
  obtain ⟨a, t, ha, hb⟩ := Res.bind_eq_ok.1 h2
  simp only [Res.ok.injEq] at hb
  obtain ⟨rfl, rfl⟩ := hb
  refine ⟨c ++ r1.take len.toNat, by simp, fun s => ?_⟩
  have hl : (r1.take len.toNat).length = len.toNat := by rw [List.length_take]; omega
  unfold decPrefixedNz
  rw [List.append_assoc, hc, Res.bind_ok, if_neg hz, if_neg (by rw [List.length_append]; omega),
    List.take_left' hl, List.drop_left' hl, hf, ha, Res.bind_ok]

theorem decWindow_windowed {α : Type} (d : Dec α) : Windowed (decWindow d) :=
  ⟨fun body => decodeMany d body.length body, fun _ _ => rfl⟩

theorem decVec_local {α : Type} (d : Dec α) : Local (decVec d) :=
  decPrefixed_local (decWindow_windowed d)

theorem decHashMap_local {κ ν : Type} [DecidableEq κ] (dk : Dec κ) (dv : Dec ν) :
    Local (decHashMap dk dv) := (decPrefixed_local (decWindow_windowed _)).map _

theorem decHashSet_local {α : Type} [DecidableEq α] (d : Dec α) : Local (decHashSet d) :=
  (decPrefixed_local (decWindow_windowed _)).map _

theorem decArray_local {α : Type} (n : Nat) (d : Dec α) : Local (decArray n d) := by
  apply decPrefixed_local
  refine ⟨fun body => (decodeUpTo d n body).bind fun xs r => if xs.length = n then .ok xs r else .panic,
    fun body rest => ?_⟩
  dsimp only
  cases decodeUpTo d n body with
  | ok xs r => simp only [Res.bind_ok]; split <;> rfl
  | err e => rfl
  | panic => rfl
  | hang => rfl

theorem decBytes_local : Local decBytes :=
  decPrefixed_local ⟨fun body => .ok body [], fun _ _ => rfl⟩

theorem toStr_local (bs : Bytes) : Local (toStr bs) := by
  unfold toStr
  split
  · exact Local.ok _
  · exact Local.err _

theorem decString_local : Local decString := decBytes_local.bind toStr_local

theorem nzUnwrap_local {α : Type} (xs : List α) : Local (nzUnwrap xs) := by
  unfold nzUnwrap
  split
  · exact Local.panic
  · exact Local.ok _

theorem decNonZeroBytes_local : Local decNonZeroBytes := by
  apply decPrefixedNz_local
  refine ⟨fun body => nzUnwrap body [], fun body rest => ?_⟩
  dsimp only [nzUnwrap]
  split <;> rfl

theorem decNonZeroString_local : Local decNonZeroString := by
  apply decNonZeroBytes_local.bind
  intro bs
  cases fromUtf8 bs with
  | none => exact Local.err _
  | some s =>
    dsimp only
    split
    · exact Local.panic
    · exact Local.ok _

theorem decNonZeroVec_local {α : Type} (d : Dec α) : Local (decNonZeroVec d) :=
  (decPrefixedNz_local (decWindow_windowed d)).bind nzUnwrap_local

theorem decNonZeroHashMap_local {κ ν : Type} [DecidableEq κ] (dk : Dec κ) (dv : Dec ν) :
    Local (decNonZeroHashMap dk dv) :=
  (decPrefixedNz_local (decWindow_windowed _)).bind fun _ => nzUnwrap_local _

theorem decNonZeroHashSet_local {α : Type} [DecidableEq α] (d : Dec α) :
    Local (decNonZeroHashSet d) :=
  (decPrefixedNz_local (decWindow_windowed _)).bind fun _ => nzUnwrap_local _

theorem decNonZeroInt_local {w : Nat} {d : Dec (BitVec w)} (h : Local d) : Local (decNonZeroInt d) := by
  apply h.bind
  intro v
  split
  · exact Local.err _
  · exact Local.ok _

theorem decU8_local : Local decU8 := by
  intro r v r' h
  cases r with
  | nil => simp [decU8] at h
  | cons b r =>
    simp only [decU8, Res.ok.injEq] at h
    obtain ⟨rfl, rfl⟩ := h
    exact ⟨[b], rfl, fun s => rfl⟩

theorem decBool_local : Local decBool := by
  intro r v r' h
  cases r with
  | nil => simp [decBool] at h
  | cons b r =>
    simp only [decBool, Res.ok.injEq] at h
    obtain ⟨rfl, rfl⟩ := h
    exact ⟨[b], rfl, fun s => rfl⟩

theorem decOption_local {α : Type} {d : Dec α} (h : Local d) : Local (decOption d) := by
  apply decU8_local.bind
  intro b
  split
  · exact h.map _
  · exact Local.ok _

theorem takeDrop_local {α : Type} (n : Nat) (f : Bytes → α) :
    Local (fun r => if r.length < n then .err .insufficientData else .ok (f (r.take n)) (r.drop n)) := by
  intro r v r' h
  dsimp only at h
  split at h
  · simp at h
  · simp only [Res.ok.injEq] at h
    obtain ⟨rfl, rfl⟩ := h
    have hl : (r.take n).length = n := by rw [List.length_take]; omega
    refine ⟨r.take n, (List.take_append_drop _ _).symm, fun s => ?_⟩
    dsimp only
    rw [if_neg (by rw [List.length_append]; omega), List.take_left' hl, List.drop_left' hl]

theorem decF32_local : Local decF32 := takeDrop_local 4 fun b => BitVec.ofNat 32 (beVal b)
theorem decF64_local : Local decF64 := takeDrop_local 8 fun b => BitVec.ofNat 64 (beVal b)

theorem decId_local : Local decId := by
  apply (decUint_local 32).bind
  intro raw
  split
  · exact Local.ok _
  · exact Local.err _

theorem skipVarint_local : Local skipVarint := by
  intro r v r' h
  induction r with
  | nil => simp [skipVarint] at h
  | cons b r ih =>
    unfold skipVarint at h
    split at h
    · rename_i hb
      simp only [Res.ok.injEq] at h
      obtain ⟨_, rfl⟩ := h
      exact ⟨[b], rfl, fun s => by simp [skipVarint, hb]⟩
    · rename_i hb
      obtain ⟨c, rfl, hc⟩ := ih h
      exact ⟨b :: c, rfl, fun s => by simp [skipVarint, hb, hc]⟩

theorem decSkip_local (e : FieldEncoding) : Local (decSkip e) := by
  cases e with
  | varint => exact skipVarint_local
  | lengthPrefixed => exact decPrefixed_local ⟨fun _ => .ok () [], fun _ _ => rfl⟩
  | fixed1 => exact takeDrop_local 1 fun _ => ()
  | fixed4 => exact takeDrop_local 4 fun _ => ()
  | fixed8 => exact takeDrop_local 8 fun _ => ()

theorem decEntry_local {κ ν : Type} {dk : Dec κ} {dv : Dec ν} (hk : Local dk) (hv : Local dv) :
    Local (decEntry dk dv) :=
  hk.bind fun _ => hv.bind fun _ => Local.ok _

theorem Local.suffix {α : Type} {d : Dec α} (h : Local d) {r : Bytes} {v : α} {r' : Bytes}
    (hr : d r = .ok v r') : r'.length ≤ r.length := by
  obtain ⟨c, rfl, _⟩ := h _ _ _ hr
  simp

/-! ### big endian -/

theorem beBytes_length (n v : Nat) : (beBytes n v).length = n := by
  induction n generalizing v with
  | zero => rfl
  | succ n ih => simp [beBytes, ih]

theorem beVal_beBytes (n v : Nat) (h : v < 256 ^ n) : beVal (beBytes n v) = v := by
  induction n generalizing v with
  | zero => simp at h; simp [beBytes, beVal, h]
  | succ n ih =>
    have hp : 0 < 256 ^ n := Nat.pos_of_ne_zero (by simp)
    have hd : v / 256 ^ n < 256 := by
      rw [Nat.div_lt_iff_lt_mul hp]; rw [Nat.pow_succ] at h; omega
    simp only [beBytes, beVal, beBytes_length]
    rw [ih _ (Nat.mod_lt _ hp), UInt8.toNat_ofNat', Nat.mod_eq_of_lt (by simpa using hd)]
    rw [Nat.mul_comm]
    exact Nat.div_add_mod v (256 ^ n)

end Mabo.Buf
