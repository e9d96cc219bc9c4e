import Verif.MetaLemmas
/-!
C34, C35: metadata shown by the tools, for every list of ids, every type and every value. The specification is in
`Spec/Meta.lean`.
-/
namespace Mabo.Props
open Mabo.Schema Mabo.Spec Mabo.Meta

/-- No id is the largest 32-bit number. -/
def NoneIsMax (ids : List (BitVec 32)) : Prop := ∀ id ∈ ids, id.toNat ≠ 2 ^ 32 - 1

theorem nextFree_spec (checked : Bool) (ids : List (BitVec 32)) (h : NoneIsMax ids) :
    ∃ next, nextFree checked ids = some next ∧ (∀ id ∈ ids, id.toNat < next.toNat) ∧ 1 ≤ next.toNat ∧
      ∀ other : BitVec 32, 1 ≤ other.toNat → (∀ id ∈ ids, id.toNat < other.toNat) → next.toNat ≤ other.toNat := by
  have hmax : (maxId ids).toNat ≠ 2 ^ 32 - 1 := by
    cases ids with
    | nil => simp [maxId]
    | cons x xs => exact h _ (maxId_mem _ (by simp))
  have hlt := (maxId ids).isLt
  have hadd : (maxId ids + 1).toNat = (maxId ids).toNat + 1 := by
    rw [BitVec.toNat_add, show (1 : BitVec 32).toNat = 1 from rfl]
    omega
  refine ⟨maxId ids + 1, ?_, fun id hid => ?_, by omega, fun other h1 h2 => ?_⟩
  · rw [nextFree, if_neg]
    simp only [Bool.and_eq_true, beq_iff_eq, not_and]
    exact fun _ => hmax
  · have := maxId_ge ids id hid; omega
  · cases ids with
    | nil => simpa [maxId] using h1
    | cons x xs => have := h2 _ (maxId_mem (x :: xs) (by simp)); omega

/-- C34. The next variant id is larger than the id of every variant — hence unused — and the smallest such id (starting
at 1), if no variant uses `u32::MAX`. -/
theorem C34_next_variant_id (checked : Bool) (vs : List Simplify.Variant) (h : NoneIsMax (vs.map (·.id))) :
    ∃ next, nextVariantId checked vs = some next ∧ (∀ v ∈ vs, v.id.toNat < next.toNat) ∧ 1 ≤ next.toNat ∧
      ∀ other : BitVec 32, 1 ≤ other.toNat → (∀ v ∈ vs, v.id.toNat < other.toNat) → next.toNat ≤ other.toNat := by
  obtain ⟨n, h1, h2, h3, h4⟩ := nextFree_spec checked _ h
  exact ⟨n, h1, fun v hv => h2 _ (List.mem_map_of_mem hv), h3, fun o ho hall => h4 o ho fun id hid => by
    obtain ⟨v, hv, rfl⟩ := List.mem_map.1 hid; exact hall v hv⟩

/-- C34. The same for fields; a unit struct or variant has no next field id. -/
theorem C34_next_field_id (checked : Bool) (fs : Simplify.Fields) (hk : fs.kind ≠ .unit)
    (h : NoneIsMax (fs.fields.map (·.id))) :
    ∃ next, nextFieldId checked fs = some (some next) ∧ (∀ f ∈ fs.fields, f.id.toNat < next.toNat) ∧ 1 ≤ next.toNat ∧
      ∀ other : BitVec 32, 1 ≤ other.toNat → (∀ f ∈ fs.fields, f.id.toNat < other.toNat) →
        next.toNat ≤ other.toNat := by
  obtain ⟨n, h1, h2, h3, h4⟩ := nextFree_spec checked _ h
  refine ⟨n, ?_, fun v hv => h2 _ (List.mem_map_of_mem hv), h3, fun o ho hall => h4 o ho fun id hid => ?_⟩
  · rw [nextFieldId, if_neg hk, h1]; rfl
  · obtain ⟨v, hv, rfl⟩ := List.mem_map.1 hid; exact hall v hv

theorem C34_unit (checked : Bool) (fs : Simplify.Fields) (hk : fs.kind = .unit) :
    nextFieldId checked fs = some none := by rw [nextFieldId, if_pos hk]

/-- C34. A field added with the proposed id keeps the ids distinct, and the proposal can be taken again and again. -/
theorem C34_extend (checked : Bool) (ids : List (BitVec 32)) (h : NoneIsMax ids) (hd : ids.Nodup) :
    ∃ next, nextFree checked ids = some next ∧ (ids ++ [next]).Nodup := by
  obtain ⟨n, h1, h2, _⟩ := nextFree_spec checked ids h
  refine ⟨n, h1, List.nodup_append.2 ⟨hd, by simp, fun a ha b hb => ?_⟩⟩
  rw [List.mem_singleton] at hb
  intro e
  have := h2 a ha
  rw [e, hb] at this
  omega

/-- The excluded case: with `u32::MAX` in use the function panics in a debug build and proposes 0, whether or not it is
in use, in a release build. -/
theorem C34_at_max (ids : List (BitVec 32)) (h : ¬ NoneIsMax ids) :
    nextFree true ids = none ∧ nextFree false ids = some 0 := by
  have : ∃ id ∈ ids, id.toNat = 2 ^ 32 - 1 := by
    refine Classical.byContradiction fun hc => h fun id hid he => hc ⟨id, hid, he⟩
  obtain ⟨id, hid, he⟩ := this
  have h1 := maxId_ge ids id hid
  have h2 := (maxId ids).isLt
  have h3 : (maxId ids).toNat = 2 ^ 32 - 1 := by omega
  refine ⟨by simp [nextFree, h3], ?_⟩
  have : maxId ids + 1 = 0 := BitVec.eq_of_toNat_eq (by rw [BitVec.toNat_add, h3]; rfl)
  rw [nextFree, this]; rfl

example : nextFree true [3, 9, 4] = some 10 := by decide
example : nextFieldId true ⟨[⟨[], "a", .prim .bool, 7⟩, ⟨[], "b", .prim .u8, 2⟩], .named⟩ = some (some 8) := by decide
example : NoneIsMax [3, 9, 4] := by simp [NoneIsMax]
example : nextFree false [0, BitVec.ofNat 32 (2 ^ 32 - 1)] = some 0 := by decide

/-- The displayed upper bound can be relied on for a field of this type: it is not a tuple, nor an optional tuple. -/
def NotTupleField : Ty → Prop
  | .tuple _ => False
  | .option (.tuple _) => False
  | _ => True

/-- C35 (partial: upper bound not for fields that are tuples, and only for arrays whose byte length and element count have
varints of the same size; see the counterexamples). The number of bytes a value takes — as an element of a collection
or tuple — and the size the generated code computes for it are within the displayed bounds. -/
theorem C35_element_partial (env : Env) (t : Ty) (v : Val) (ha : ArraysOk t) (hv : wt env t v = true)
    (hs : Codegen.size env t v < 2 ^ 64) (s : WireSize) (hw : wireSize t = some s) :
    Within s (Codegen.enc env false t v).length ∧ Within s (Codegen.size env t v) := by
  have ⟨h1, h2⟩ := sound (env := env) t ha v hv hs
  rw [hw] at h1 h2
  exact ⟨h2, h1⟩

/-- C35 (partial, as above). As the content of a field. -/
theorem C35_field_partial (env : Env) (t : Ty) (v : Val) (ha : ArraysOk t) (hv : wt env t v = true)
    (hs : Codegen.size env t v < 2 ^ 64) (s : WireSize) (hw : wireSize t = some s) :
    s.min ≤ (fieldBytes env t v).length ∧
      (NotTupleField t → ∀ m, s.max = some m → (fieldBytes env t v).length ≤ m) := by
  have ⟨⟨h1, h2⟩, _⟩ := C35_element_partial env t v ha hv hs s hw
  have other : (fieldBytes env t v = Codegen.enc env true t v) → s.min ≤ (fieldBytes env t v).length ∧
      (NotTupleField t → ∀ m, s.max = some m → (fieldBytes env t v).length ≤ m) := by
    intro he
    rw [he]
    refine ⟨Nat.le_trans h1 (Codegen.enc_false_le_root env t v), fun hn m hm => ?_⟩
    rw [Codegen.enc_root (by cases t <;> simp [NotTupleField, isTuple] at hn ⊢)]
    exact h2 m hm
  cases t with
  | option t =>
    have hmin : s.min = 0 := by
      rw [wireSize] at hw; injection hw with hw; rw [← hw]
    refine ⟨by omega, fun hn m hm => ?_⟩
    have hlen := h2 m hm
    cases v with
    | some v =>
      simp only [fieldBytes]
      rw [Codegen.enc_root (by cases t <;> simp [NotTupleField, isTuple] at hn ⊢)]
      rw [Codegen.enc.eq_def] at hlen
      simp only [Ty.strip, List.length_cons] at hlen
      omega
    | _ => simp [fieldBytes]
  | _ => exact other rfl

/-- C35 is false for a tuple field: `(u8, u8)` is displayed as exactly 2 bytes but takes 3 as a field, because of its
length prefix. -/
theorem C35_tuple_counterexample (env : Env) :
    let t := Ty.tuple [.prim .u8, .prim .u8]
    let v := Val.list [.num 1, .num 2]
    wt env t v = true ∧ wireSize t = some ⟨2, some 2⟩ ∧ (fieldBytes env t v).length = 3 :=
  ⟨rfl, rfl, rfl⟩

/-- C35 is false for arrays, which are prefixed by their length in bytes, not by their element count: `[u16; 100]` is
displayed as at most 301 bytes, but takes 302 when all elements are large. -/
theorem C35_array_max_counterexample :
    let env : Env := fun _ => none
    let t := Ty.array (.prim .u16) 100
    let v := Val.list (List.replicate 100 (.num 65535))
    wt env t v = true ∧ wireSize t = some ⟨101, some 301⟩ ∧ (fieldBytes env t v).length = 302 :=
  ⟨by decide +kernel, by decide +kernel, by decide +kernel⟩

/-- C35 is false for arrays: an array of 200 unit structs is displayed as at least 2 bytes, but takes 1. -/
theorem C35_array_min_counterexample :
    let env : Env := fun _ => some (.struct ⟨.unit, []⟩)
    let t := Ty.array (.ext ["U"] []) 200
    let v := Val.list (List.replicate 200 (.struct []))
    wt env t v = true ∧ wireSize t = some ⟨2, none⟩ ∧ (fieldBytes env t v).length = 1 :=
  ⟨by decide +kernel, by decide +kernel, by decide +kernel⟩

example : ArraysOk (.array (.tuple [.prim .u8, .option (.prim .u16)]) 20) := by
  simp only [ArraysOk, ArraysOks, and_true]
  refine ⟨by omega, ⟨.inr (by omega), ?_⟩⟩
  intro m hm k hk
  have : maxOf (wireSize (.tuple [.prim .u8, .option (.prim .u16)])) = some 5 := rfl
  rw [this] at hm; injection hm with hm; subst hm
  have : 128 ^ 1 ≤ 128 ^ (k + 1) := Nat.pow_le_pow_right (by omega) (by omega)
  omega
example : wireSize (.array (.tuple [.prim .u8, .option (.prim .u16)]) 20) = some ⟨21, some 101⟩ := rfl

end Mabo.Props
