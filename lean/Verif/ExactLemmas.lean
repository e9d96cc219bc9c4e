import Verif.FragmentLemmas
/-! If `size()` is exact for a value (and no collection has empty elements) then all its collections announce
their exact byte length. -/
namespace Mabo.Codegen
open Mabo.Buf Mabo.Varint Mabo.Schema Mabo.Spec

def EXt (env : Env) (v : Val) (t : Ty) : Prop :=
  wt env t v = true → noEmpty env t v = true → exactSize env t v = true →
    (enc env false t v).length < 2 ^ 64 → faithful env t v = true

def ElemsEX (env : Env) (xs : List Val) : Prop :=
  ∀ t, wtList env t xs = true → noEmptyList env t xs = true → exactList env t xs = true →
    (encList env t xs).length < 2 ^ 64 → faithfulElems env t xs = true

def EntriesEX (env : Env) (xs : List Val) : Prop :=
  ∀ k w, wtEntries env k w xs = true → noEmptyEntries env k w xs = true → exactEntries env k w xs = true →
    (encEntries env k w xs).length < 2 ^ 64 → faithfulEntries env k w xs = true

def TupleEX (env : Env) (xs : List Val) : Prop :=
  ∀ ts, wtTuple env ts xs = true → noEmptyTuple env ts xs = true → exactTuple env ts xs = true →
    (encTuple env ts xs).length < 2 ^ 64 → faithfulTuple env ts xs = true

def FieldsEX (env : Env) (vs : List Val) : Prop :=
  ∀ fs, wtFields env fs vs = true → noEmptyFields env fs vs = true → exactFields env fs vs = true →
    (encFields env fs vs).length < 2 ^ 64 → faithfulFields env fs vs = true

theorem ex_elems {env : Env} (hE : EnvOk env) {t : Ty} {xs : List Val} (h1 : ElemsEX env xs)
    (hw : wtList env t xs = true) (hn : noEmptyList env t xs = true) (hx : exactList env t xs = true)
    (hl : (encLen (sizeList env t xs) ++ encList env t xs).length < 2 ^ 64) :
    (decide (sizeList env t xs = (encList env t xs).length) && faithfulElems env t xs) = true := by
  rw [List.length_append] at hl
  have := ((szLists hE xs).1 t hw hn (by omega)).2.2.2 hx
  have a := h1 t hw hn hx (by omega)
  simp [a, this]

theorem ex_entries {env : Env} (hE : EnvOk env) {k w : Ty} {xs : List Val} (h1 : EntriesEX env xs)
    (hw : wtEntries env k w xs = true) (hn : noEmptyEntries env k w xs = true)
    (hx : exactEntries env k w xs = true)
    (hl : (encLen (sizeEntries env k w xs) ++ encEntries env k w xs).length < 2 ^ 64) :
    (decide (sizeEntries env k w xs = (encEntries env k w xs).length) && faithfulEntries env k w xs) = true := by
  rw [List.length_append] at hl
  have := ((szLists hE xs).2.1 k w hw hn (by omega)).2.2.2 hx
  have a := h1 k w hw hn hx (by omega)
  simp [a, this]

theorem ex_struct {env : Env} {vs : List Val} (h4 : FieldsEX env vs) {t : Ty} {name : List String}
    {args : List Ty} (ht : t.strip = .ext name args) : EXt env (.struct vs) t := by
  intro hw hn hx hl
  rw [wt.eq_def] at hw
  rw [enc.eq_def] at hl
  rw [noEmpty.eq_def] at hn
  rw [exactSize.eq_def] at hx
  simp only [ht, Bool.and_eq_true] at hw hl hn hx
  rw [faithful.eq_def]
  simp only [ht]
  cases henv : env name with
  | none => rfl
  | some d =>
    cases d with
    | enum vars => rfl
    | struct fs =>
      simp only [henv, Bool.and_eq_true] at hw hl hn hx ⊢
      by_cases hk : fs.kind = .unit
      · have hu := hw.2.1
        simp only [Fields.unitOk, hk, bne_self_eq_false, Bool.false_or, List.isEmpty_iff] at hu
        simp [Fields.subst, hu, faithfulFields]
      · rw [if_neg hk, List.length_append] at hl
        exact h4 _ hw.2.2 hn hx (by omega)

theorem ex_enum {env : Env} {vs : List Val} (h4 : FieldsEX env vs) {i : Nat} {t : Ty} {name : List String}
    {args : List Ty} (ht : t.strip = .ext name args) : EXt env (.enum i vs) t := by
  intro hw hn hx hl
  rw [wt.eq_def] at hw
  rw [enc.eq_def] at hl
  rw [noEmpty.eq_def] at hn
  rw [exactSize.eq_def] at hx
  simp only [ht, Bool.and_eq_true] at hw hl hn hx
  rw [faithful.eq_def]
  simp only [ht]
  cases henv : env name with
  | none => rfl
  | some d =>
    cases d with
    | struct _ => rfl
    | enum vars =>
      cases hv : vars[i]? with
      | none => simp [henv, hv] at hw
      | some var =>
        simp only [henv, hv, Bool.and_eq_true] at hw hl hn hx ⊢
        by_cases hk : var.fields.kind = .unit
        · have hu := hw.2.1
          simp only [Fields.unitOk, hk, bne_self_eq_false, Bool.false_or, List.isEmpty_iff] at hu
          simp [Fields.subst, hu, faithfulFields]
        · rw [if_neg hk, List.length_append, List.length_append] at hl
          exact h4 _ hw.2.2 hn hx (by omega)

theorem ex_list {env : Env} (hE : EnvOk env) {xs : List Val} (h1 : ElemsEX env xs) (h2 : EntriesEX env xs)
    (h3 : TupleEX env xs) (t : Ty) : EXt env (.list xs) t := by
  intro hw hn hx hl
  rw [wt.eq_def] at hw
  rw [enc.eq_def] at hl
  rw [noEmpty.eq_def] at hn
  rw [exactSize.eq_def] at hx
  rw [faithful.eq_def]
  cases ht : t.strip with
  | vec a =>
    simp only [ht, Bool.and_eq_true] at hw hl hn hx ⊢
    have := ex_elems hE h1 hw.2 hn hx.2 hl
    simpa only [Bool.and_eq_true] using this
  | hashMap a b =>
    simp only [ht, Bool.and_eq_true] at hw hl hn hx ⊢
    have := ex_entries hE h2 hw.2.1 hn hx.2 hl
    simpa only [Bool.and_eq_true] using this
  | hashSet a =>
    simp only [ht, Bool.and_eq_true] at hw hl hn hx ⊢
    have := ex_elems hE h1 hw.2.1 hn hx.2 hl
    simpa only [Bool.and_eq_true] using this
  | array a n =>
    simp only [ht, Bool.and_eq_true] at hw hl hn hx ⊢
    have := ex_elems hE h1 hw.2.2 hn hx.2 hl
    simpa only [Bool.and_eq_true] using this
  | tuple ts =>
    simp only [ht, Bool.and_eq_true] at hw hl hn hx ⊢
    refine h3 ts hw.2.2 hn hx ?_
    revert hl
    cases t <;> intro hl <;> exact hl
  | _ => rfl

def EX2 (env : Env) (v : Val) : Prop :=
  (∀ t, EXt env v t) ∧ (∀ x, v = .some x → ∀ t, EXt env x t) ∧
  (∀ a b, v = .pair a b → (∀ t, EXt env a t) ∧ ∀ t, EXt env b t)

theorem ex_leaf {env : Env} {v : Val} (hl : ∀ xs, v ≠ .list xs) (hs : ∀ x, v ≠ .some x)
    (h1 : ∀ vs, v ≠ .struct vs) (h2 : ∀ i vs, v ≠ .enum i vs) (t : Ty) : EXt env v t := by
  intro hw _ _ _
  rw [faithful.eq_def]
  rw [wt.eq_def] at hw
  cases ht : t.strip <;> cases v <;> simp [ht] at hw hl hs h1 h2 ⊢

theorem ex_some {env : Env} {x : Val} (ih : ∀ t, EXt env x t) (t : Ty) : EXt env (.some x) t := by
  intro hw hn hx hl
  rw [wt.eq_def] at hw
  rw [enc.eq_def] at hl
  rw [noEmpty.eq_def] at hn
  rw [exactSize.eq_def] at hx
  rw [faithful.eq_def]
  cases ht : t.strip with
  | option a =>
    simp only [ht, Bool.and_eq_true, List.length_cons] at hw hl hn hx ⊢
    exact ih a hw.2 hn hx (by omega)
  | _ => simp [ht]

mutual
theorem ex2 {env : Env} (hE : EnvOk env) : ∀ v : Val, EX2 env v
  | .bool b => ⟨ex_leaf (by simp) (by simp) (by simp) (by simp), by simp, by simp⟩
  | .num b => ⟨ex_leaf (by simp) (by simp) (by simp) (by simp), by simp, by simp⟩
  | .str b => ⟨ex_leaf (by simp) (by simp) (by simp) (by simp), by simp, by simp⟩
  | .bytes b => ⟨ex_leaf (by simp) (by simp) (by simp) (by simp), by simp, by simp⟩
  | .none => ⟨ex_leaf (by simp) (by simp) (by simp) (by simp), by simp, by simp⟩
  | .pair a b => ⟨ex_leaf (by simp) (by simp) (by simp) (by simp), by simp, by
      intro a' b' h
      simp only [Val.pair.injEq] at h
      obtain ⟨rfl, rfl⟩ := h
      exact ⟨(ex2 hE a).1, (ex2 hE b).1⟩⟩
  | .some x => ⟨ex_some (ex2 hE x).1, by
      intro y h
      simp only [Val.some.injEq] at h
      subst h
      exact (ex2 hE x).1, by simp⟩
  | .list xs => ⟨ex_list hE (exLists hE xs).1 (exLists hE xs).2.1 (exLists hE xs).2.2.1, by simp, by simp⟩
  | .struct vs => ⟨by
      intro t
      cases ht : t.strip with
      | ext name args => exact ex_struct (exLists hE vs).2.2.2 ht
      | _ => intro _ _ _ _; rw [faithful.eq_def]; simp [ht], by simp, by simp⟩
  | .enum i vs => ⟨by
      intro t
      cases ht : t.strip with
      | ext name args => exact ex_enum (exLists hE vs).2.2.2 ht
      | _ => intro _ _ _ _; rw [faithful.eq_def]; simp [ht], by simp, by simp⟩
theorem exLists {env : Env} (hE : EnvOk env) :
    ∀ xs : List Val, ElemsEX env xs ∧ EntriesEX env xs ∧ TupleEX env xs ∧ FieldsEX env xs
  | [] => by
    refine ⟨?_, ?_, ?_, ?_⟩
    · intro t _ _ _ _; simp [faithfulElems]
    · intro k w _ _ _ _; simp [faithfulEntries]
    · intro ts _ _ _ _; cases ts <;> simp [faithfulTuple]
    · intro fs _ _ _ _; cases fs <;> simp [faithfulFields]
  | v :: vs => by
    have hv := ex2 hE v
    have hvs := exLists hE vs
    refine ⟨?_, ?_, ?_, ?_⟩
    · intro t hw hn hx hl
      simp only [wtList, noEmptyList, exactList, encList, List.length_append, Bool.and_eq_true] at hw hn hx hl
      simp only [faithfulElems, Bool.and_eq_true]
      exact ⟨⟨hn.1.1, hv.1 t hw.1 hn.1.2 hx.1 (by omega)⟩, hvs.1 t hw.2 hn.2 hx.2 (by omega)⟩
    · intro k w hw hn hx hl
      cases v <;> simp only [wtEntries, Bool.false_eq_true] at hw
      simp only [noEmptyEntries, exactEntries, encEntries, List.length_append, Bool.and_eq_true] at hw hn hx hl
      simp only [faithfulEntries, Bool.and_eq_true]
      obtain ⟨ha, hb⟩ := hv.2.2 _ _ rfl
      exact ⟨⟨⟨hn.1.1.1, ha k hw.1.1 hn.1.1.2 hx.1.1 (by omega)⟩, hb w hw.1.2 hn.1.2 hx.1.2 (by omega)⟩,
        hvs.2.1 k w hw.2 hn.2 hx.2 (by omega)⟩
    · intro ts hw hn hx hl
      cases ts with
      | nil => simp [wtTuple] at hw
      | cons t ts =>
        simp only [wtTuple, noEmptyTuple, exactTuple, encTuple, List.length_append, Bool.and_eq_true] at hw hn hx hl
        simp only [faithfulTuple, Bool.and_eq_true]
        exact ⟨hv.1 t hw.1 hn.1 hx.1 (by omega), hvs.2.2.1 ts hw.2 hn.2 hx.2 (by omega)⟩
    · intro fs hw hn hx hl
      cases fs with
      | nil => simp [wtFields] at hw
      | cons f fs =>
        simp only [wtFields, Bool.and_eq_true] at hw
        rw [encFields.eq_def] at hl
        rw [noEmptyFields.eq_def] at hn
        rw [exactFields.eq_def] at hx
        simp only [List.length_append, Bool.and_eq_true] at hl hn hx
        have d := hvs.2.2.2 fs hw.2 hn.2 hx.2 (by omega)
        rw [faithfulFields.eq_def]
        simp only [d, Bool.and_true]
        cases hty : f.ty with
        | option t =>
          rw [hty] at hw
          simp only [hty] at hl hn hx
          rcases wt_option_cases hw.1 with rfl | ⟨x, rfl, hwx⟩
          · simp
          · simp only [List.length_append, Bool.and_eq_true] at hl hn hx
            have := enc_false_le_root env t x
            exact hv.2.1 x rfl t hwx hn.1 hx.1.2 (by omega)
        | _ =>
          have h0 := enc_false_le_root env f.ty v
          simp only [hty, encField, List.length_append, Bool.and_eq_true] at hl hn hx
          rw [hty] at h0 hw
          exact hv.1 _ hw.1 hn.1 hx.1.2 (by omega)
end

theorem exact_faithful {env : Env} (hE : EnvOk env) {t : Ty} {v : Val} (hw : wt env t v = true)
    (hn : noEmpty env t v = true) (hx : exactSize env t v = true) (hl : (enc env false t v).length < 2 ^ 64) :
    faithful env t v = true := (ex2 hE v).1 t hw hn hx hl

end Mabo.Codegen
