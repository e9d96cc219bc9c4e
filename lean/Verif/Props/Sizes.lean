import Verif.Props.Buf
/-! C75: the size functions of the runtime library. -/
namespace Mabo.Props
open Mabo.Varint Mabo.Buf

/-- The number of bytes of an encoded field identifier is the size that is computed from its number alone, for all numbers. -/
theorem fieldId_size (id : FieldId) : sizeFieldId id.value = (encId id).length := by
  unfold sizeFieldId encId
  rw [← sizeU_eq_length (by omega)]
  have hn := intoU32_toNat id
  have hs : (id.value <<< 3).toNat = 8 * (id.value.toNat % 2 ^ 29) := by
    rw [BitVec.toNat_shiftLeft, Nat.shiftLeft_eq]; omega
  have he := enc_lt id.encoding
  have key : ∀ k, sizeU (id.value <<< 3) ≤ k + 1 ↔ sizeU id.intoU32 ≤ k + 1 := by
    intro k
    rw [sizeU_le_iff, sizeU_le_iff, hn, hs]
    have : 128 ^ (k + 1) = 8 * (16 * 128 ^ k) := by rw [Nat.pow_succ]; omega
    omega
  have p1 := sizeU_pos (id.value <<< 3)
  have p2 := sizeU_pos id.intoU32
  have a := (key (sizeU id.intoU32 - 1)).2 (by omega)
  have b := (key (sizeU (id.value <<< 3) - 1)).1 (by omega)
  omega

/-- C75 for fields: with any identifier, and for a value whose size is right, the sizes of a field and an optional field are right. -/
theorem C75_fields {α : Type} (id : FieldId) (size : α → Nat) (enc : α → Bytes) :
    (∀ v, size v = (enc v).length → sizeField id.value (size v) = (encField id (enc v)).length) ∧
    (∀ o : Option α, (∀ v, o = some v → size v = (enc v).length) →
      sizeFieldOption id.value o size = (encFieldOption id o enc).length ∧ sizeOption o size = (encOption o enc).length) := by
  refine ⟨fun v h => ?_, fun o h => ?_⟩
  · simp [sizeField, encField, fieldId_size, h]
  · cases o with
    | none => exact ⟨rfl, rfl⟩
    | some v => simp [sizeFieldOption, encFieldOption, sizeOption, encOption, fieldId_size, h v rfl]; omega

/-- Two numbers need the same number of bytes as varints: they are below the same powers of 128. -/
def SameWidth (a b : Nat) : Prop := ∀ k, 1 ≤ k → (a < 128 ^ k ↔ b < 128 ^ k)

theorem sizeLen_le {n : Nat} (h : n < 2 ^ 64) (k : Nat) : sizeLen n ≤ k + 1 ↔ n < 128 ^ (k + 1) := by
  unfold sizeLen
  rw [sizeU_le_iff, BitVec.toNat_ofNat, Nat.mod_eq_of_lt h]

theorem sizeLen_pos (n : Nat) : 1 ≤ sizeLen n := sizeU_pos _

theorem sizeLen_eq {a b : Nat} (ha : a < 2 ^ 64) (hb : b < 2 ^ 64) : sizeLen a = sizeLen b ↔ SameWidth a b := by
  have p1 := sizeLen_pos a
  have p2 := sizeLen_pos b
  constructor
  · intro h k hk
    obtain ⟨k, rfl⟩ : ∃ j, k = j + 1 := ⟨k - 1, by omega⟩
    rw [← sizeLen_le ha, ← sizeLen_le hb, h]
  · intro h
    have key : ∀ k, sizeLen a ≤ k + 1 ↔ sizeLen b ≤ k + 1 := fun k => by
      rw [sizeLen_le ha, sizeLen_le hb]; exact h (k + 1) (by omega)
    have h1 := (key (sizeLen b - 1)).2 (by omega)
    have h2 := (key (sizeLen a - 1)).1 (by omega)
    omega

theorem sizeLen_mono {a b : Nat} (hb : b < 2 ^ 64) (h : a ≤ b) : sizeLen a ≤ sizeLen b := by
  have p2 := sizeLen_pos b
  have := (sizeLen_le (show a < 2 ^ 64 by omega) (sizeLen b - 1)).2
  have h2 := (sizeLen_le hb (sizeLen b - 1)).1 (by omega)
  have := this (by omega)
  omega

theorem sizeLen_max (n : Nat) (h : n < 2 ^ 64) : sizeLen n ≤ 10 :=
  (sizeLen_le h 9).2 (Nat.lt_of_lt_of_le h (by decide))

/-- What can be said about the size of a collection of `count` elements whose encodings have `bytes` bytes together: it is never too large
if no element is empty, differs by at most 9, and is right exactly if the two numbers need the same number of bytes. -/
structure SizeSpec (count bytes predicted actual : Nat) (noEmpty : Prop) : Prop where
  exact : predicted = actual ↔ SameWidth count bytes
  below : noEmpty → predicted ≤ actual
  near : predicted ≤ actual + 9 ∧ actual ≤ predicted + 9

theorem count_le {α : Type} (enc : α → Bytes) : ∀ xs : List α, (∀ x ∈ xs, enc x ≠ []) → xs.length ≤ (encElems enc xs).length
  | [], _ => Nat.le_refl 0
  | x :: xs, h => by
    have h1 := List.length_pos_iff.2 (h x List.mem_cons_self)
    have h2 := count_le enc xs fun y hy => h y (List.mem_cons_of_mem _ hy)
    simp only [encElems, List.length_cons, List.length_append]
    omega

theorem sizeSpec {α : Type} (size : α → Nat) (enc : α → Bytes) (xs : List α) (h : ∀ x ∈ xs, size x = (enc x).length)
    (hl : xs.length < 2 ^ 64) (hb : (encElems enc xs).length < 2 ^ 64) :
    SizeSpec xs.length (encElems enc xs).length (sizeLen xs.length + sumSizes size xs) (encLen (sumSizes size xs) ++ encElems enc xs).length
      (∀ x ∈ xs, enc x ≠ []) := by
  rw [sumSizes_eq_length size enc xs h, List.length_append, encLen_length]
  have a1 := sizeLen_max _ hl
  have a2 := sizeLen_max _ hb
  have b1 := sizeLen_pos xs.length
  have b2 := sizeLen_pos (encElems enc xs).length
  refine ⟨?_, fun hn => ?_, by omega, by omega⟩
  · rw [← sizeLen_eq hl hb]; omega
  · have := sizeLen_mono hb (count_le enc xs hn); omega

/-- C75 (partial: the full claim is that the size of a collection is the length of its encoding; it is not, see `C75_fails`): what the
size functions of vectors, arrays, sets and maps return, if those of the elements are right. -/
theorem C75_collections_partial {α κ ν : Type} (size : α → Nat) (enc : α → Bytes) (sk : κ → Nat) (ek : κ → Bytes) (sv : ν → Nat)
    (ev : ν → Bytes) (xs : List α) (m : List (κ × ν)) (hx : ∀ x ∈ xs, size x = (enc x).length)
    (hm : ∀ e ∈ m, sk e.1 = (ek e.1).length ∧ sv e.2 = (ev e.2).length) (hl : xs.length < 2 ^ 64) (hl' : m.length < 2 ^ 64)
    (hb : (xs.flatMap enc).length < 2 ^ 64) (hb' : (m.flatMap fun e => ek e.1 ++ ev e.2).length < 2 ^ 64) :
    SizeSpec xs.length (xs.flatMap enc).length (sizeVec xs size) (encVec xs size enc).length (∀ x ∈ xs, enc x ≠ []) ∧
    SizeSpec xs.length (xs.flatMap enc).length (sizeArray xs size) (encArray xs size enc).length (∀ x ∈ xs, enc x ≠ []) ∧
    SizeSpec xs.length (xs.flatMap enc).length (sizeHashSet xs size) (encHashSet xs size enc).length (∀ x ∈ xs, enc x ≠ []) ∧
    SizeSpec m.length (m.flatMap fun e => ek e.1 ++ ev e.2).length (sizeHashMap m sk sv) (encHashMap m sk sv ek ev).length
      (∀ e ∈ m, ek e.1 ≠ [] ∨ ev e.2 ≠ []) := by
  have fm : ∀ {β : Type} (f : β → Bytes) (ys : List β), encElems f ys = ys.flatMap f := by
    intro β f ys
    induction ys with
    | nil => rfl
    | cons y ys ih => simp [encElems, ih]
  have h1 := sizeSpec size enc xs hx hl (by rw [fm]; exact hb)
  have h2 := sizeSpec (fun e : κ × ν => sk e.1 + sv e.2) (fun e => ek e.1 ++ ev e.2) m (fun e he => by
    simp [(hm e he).1, (hm e he).2]) hl' (by rw [fm]; exact hb')
  rw [show (encElems enc xs).length = (xs.flatMap enc).length by rw [fm]] at h1
  rw [show (encElems (fun e : κ × ν => ek e.1 ++ ev e.2) m).length = (m.flatMap fun e => ek e.1 ++ ev e.2).length by rw [fm]] at h2
  refine ⟨h1, h1, h1, h2.exact, fun hn => h2.below fun e he => ?_, h2.near⟩
  rcases hn e he with h | h <;> simp [h]

/-- C75, refutation of the full claim: a vector of 64 numbers of two bytes is one byte longer than its size. For any vector of elements
that all have two bytes, the size is wrong whenever there are 64 to 127. -/
theorem C75_fails {α : Type} (size : α → Nat) (enc : α → Bytes) (xs : List α) (hx : ∀ x ∈ xs, size x = 2 ∧ (enc x).length = 2)
    (h64 : 64 ≤ xs.length) (h128 : xs.length < 128) : sizeVec xs size + 1 = (encVec xs size enc).length := by
  have hs : sumSizes size xs = 2 * xs.length ∧ (encElems enc xs).length = 2 * xs.length := by
    clear h64 h128
    induction xs with
    | nil => exact ⟨rfl, rfl⟩
    | cons x xs ih =>
      have ⟨a, b⟩ := ih fun y hy => hx y (List.mem_cons_of_mem _ hy)
      have ⟨c, d⟩ := hx x List.mem_cons_self
      simp only [sumSizes, encElems, List.length_cons, List.length_append]
      omega
  unfold sizeVec encVec
  rw [List.length_append, encLen_length, hs.1, hs.2]
  have a1 := (sizeLen_le (show xs.length < 2 ^ 64 by omega) 0).2 (by omega)
  have a2 := sizeLen_pos xs.length
  have b1 := (sizeLen_le (show 2 * xs.length < 2 ^ 64 by omega) 1).2 (by omega)
  have b2 := mt (sizeLen_le (show 2 * xs.length < 2 ^ 64 by omega) 0).1 (by omega)
  omega

example : (∀ x ∈ List.replicate 100 (300#16), sizeU x = 2 ∧ (encodeU x).length = 2) ∧ 64 ≤ (List.replicate 100 (300#16)).length := by
  refine ⟨fun x hx => ?_, by decide⟩
  rw [List.eq_of_mem_replicate hx]
  decide +kernel

/-- A map of two entries, whose size is right. -/
example : sizeHashMap [(1#16, [7, 8]), (300#16, [])] sizeU sizeBytes = 8 ∧
    (encHashMap [(1#16, [7, 8]), (300#16, [])] sizeU sizeBytes encodeU encBytes).length = 8 ∧ SameWidth 2 7 := by
  refine ⟨by decide +kernel, by decide +kernel, fun k hk => ?_⟩
  obtain ⟨k, rfl⟩ : ∃ j, k = j + 1 := ⟨k - 1, by omega⟩
  have : 1 ≤ 128 ^ k := Nat.pos_of_ne_zero (by simp)
  rw [Nat.pow_succ]
  omega

/-- An identifier of more than 29 bits. -/
example : sizeField 0x20000001#32 3 = (encField ⟨0x20000001#32, .fixed8⟩ [1, 2, 3]).length := by decide +kernel

end Mabo.Props
