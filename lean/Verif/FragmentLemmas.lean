import Verif.Spec.Fragment
import Verif.SizeLemmas
/-! The syntactic fragments imply the value-level conditions. -/
set_option linter.unusedSectionVars false
namespace Mabo.Codegen
open Mabo.Buf Mabo.Varint Mabo.Schema Mabo.Spec

theorem elemTys_get {env : Env} {S : List String → Bool} {args : List Ty} (h : elemTys env S args = true)
    {i : Nat} {a : Ty} (ha : args[i]? = some a) : plainTy S a = true ∧ neTy env a = true := by
  induction args generalizing i with
  | nil => simp at ha
  | cons b bs ih =>
    simp only [elemTys, elemTy, Bool.and_eq_true] at h
    cases i with
    | zero => simp at ha; subst ha; exact h.1
    | succ j => rw [List.getElem?_cons_succ] at ha; exact ih h.2 ha

theorem plainTys_get {S : List String → Bool} {args : List Ty} (h : plainTys S args = true)
    {i : Nat} {a : Ty} (ha : args[i]? = some a) : plainTy S a = true := by
  induction args generalizing i with
  | nil => simp at ha
  | cons b bs ih =>
    simp only [plainTys, Bool.and_eq_true] at h
    cases i with
    | zero => simp at ha; subst ha; exact h.1
    | succ j => rw [List.getElem?_cons_succ] at ha; exact ih h.2 ha

section
variable {S : List String → Bool} {args : List Ty} (hargs : ∀ (i : Nat) (a : Ty), args[i]? = some a → plainTy S a = true)
include hargs
mutual
theorem plainTy_subst : ∀ t, plainTy S t = true → plainTy S (t.subst args) = true
  | .prim _, _ => rfl
  | .nonZero t, h => by
    cases t <;> simp only [plainTy, Bool.false_eq_true] at h
    rfl
  | .option t, h => by simp only [plainTy, Ty.subst] at h ⊢; exact plainTy_subst t h
  | .tuple ts, h => by simp only [plainTy, Ty.subst] at h ⊢; exact plainTys_subst ts h
  | .ext name as, h => by
    simp only [plainTy, Ty.subst, Bool.and_eq_true] at h ⊢; exact ⟨h.1, plainTys_subst as h.2⟩
  | .param i, _ => by
    simp only [Ty.subst]
    cases ha : args[i]? with
    | none => rfl
    | some a => simp only [plainTy]; exact hargs i a ha
  | .inst t, h => by simp only [plainTy, Ty.subst] at h ⊢; exact plainTy_subst t h
  | .vec _, h => by simp [plainTy] at h
  | .hashMap _ _, h => by simp [plainTy] at h
  | .hashSet _, h => by simp [plainTy] at h
  | .array _ _, h => by simp [plainTy] at h
theorem plainTys_subst : ∀ ts, plainTys S ts = true → plainTys S (Ty.substList args ts) = true
  | [], _ => rfl
  | t :: ts, h => by
    simp only [plainTys, Ty.substList, Bool.and_eq_true] at h ⊢
    exact ⟨plainTy_subst t h.1, plainTys_subst ts h.2⟩
end
end

section
variable {env : Env} {args : List Ty} (hargs : ∀ (i : Nat) (a : Ty), args[i]? = some a → neTy env a = true)
include hargs
mutual
theorem neTy_subst : ∀ t, neTy env t = true → neTy env (t.subst args) = true
  | .prim _, _ => rfl
  | .nonZero _, _ => rfl
  | .option _, _ => rfl
  | .vec _, _ => rfl
  | .hashMap _ _, _ => rfl
  | .hashSet _, _ => rfl
  | .array _ _, _ => rfl
  | .tuple ts, h => by simp only [neTy, Ty.subst] at h ⊢; exact neAny_subst ts h
  | .ext name as, h => by simp only [neTy, Ty.subst] at h ⊢; exact h
  | .param i, _ => by
    simp only [Ty.subst]
    cases ha : args[i]? with
    | none => rfl
    | some a => simp only [neTy]; exact hargs i a ha
  | .inst t, h => by simp only [neTy, Ty.subst] at h ⊢; exact neTy_subst t h
theorem neAny_subst : ∀ ts, neAny env ts = true → neAny env (Ty.substList args ts) = true
  | [], h => by simp [neAny] at h
  | t :: ts, h => by
    simp only [neAny, Ty.substList, Bool.or_eq_true] at h ⊢
    rcases h with h | h
    · exact .inl (neTy_subst t h)
    · exact .inr (neAny_subst ts h)
end
end

theorem elemTy_subst {env : Env} {S : List String → Bool} {args : List Ty} (h : elemTys env S args = true) {t : Ty}
    (ht : elemTy env S t = true) : elemTy env S (t.subst args) = true := by
  simp only [elemTy, Bool.and_eq_true] at ht ⊢
  exact ⟨plainTy_subst (fun _ _ ha => (elemTys_get h ha).1) t ht.1,
    neTy_subst (fun _ _ ha => (elemTys_get h ha).2) t ht.2⟩

theorem elemTys_subst {env : Env} {S : List String → Bool} {args : List Ty} (h : elemTys env S args = true)
    {ts : List Ty} (ht : elemTys env S ts = true) : elemTys env S (Ty.substList args ts) = true := by
  induction ts with
  | nil => rfl
  | cons t ts ih =>
    simp only [elemTys, Ty.substList, Bool.and_eq_true] at ht ⊢
    exact ⟨elemTy_subst h ht.1, ih ht.2⟩

theorem pairTy_subst {env : Env} {S : List String → Bool} {args : List Ty} (h : elemTys env S args = true)
    {k w : Ty} (ht : (plainTy S k && plainTy S w && (neTy env k || neTy env w)) = true) :
    (plainTy S (k.subst args) && plainTy S (w.subst args) && (neTy env (k.subst args) || neTy env (w.subst args)))
      = true := by
  simp only [Bool.and_eq_true, Bool.or_eq_true] at ht ⊢
  refine ⟨⟨plainTy_subst (fun _ _ ha => (elemTys_get h ha).1) k ht.1.1,
    plainTy_subst (fun _ _ ha => (elemTys_get h ha).1) w ht.1.2⟩, ?_⟩
  rcases ht.2 with hh | hh
  · exact .inl (neTy_subst (fun _ _ ha => (elemTys_get h ha).2) k hh)
  · exact .inr (neTy_subst (fun _ _ ha => (elemTys_get h ha).2) w hh)

mutual
theorem shallowTy_subst {env : Env} {S T : List String → Bool} {args : List Ty} (h : elemTys env S args = true) :
    ∀ t, shallowTy env S T t = true → shallowTy env S T (t.subst args) = true
  | .prim _, _ => rfl
  | .nonZero t, ht => by
    cases t <;> simp only [shallowTy, Bool.false_eq_true] at ht <;> simp only [Ty.subst, shallowTy]
    · exact elemTy_subst h ht
    · exact pairTy_subst h ht
    · exact elemTy_subst h ht
  | .vec t, ht => by simp only [shallowTy, Ty.subst] at ht ⊢; exact elemTy_subst h ht
  | .hashSet t, ht => by simp only [shallowTy, Ty.subst] at ht ⊢; exact elemTy_subst h ht
  | .array t _, ht => by simp only [shallowTy, Ty.subst] at ht ⊢; exact elemTy_subst h ht
  | .hashMap k w, ht => by simp only [shallowTy, Ty.subst] at ht ⊢; exact pairTy_subst h ht
  | .option t, ht => by simp only [shallowTy, Ty.subst] at ht ⊢; exact shallowTy_subst h t ht
  | .tuple ts, ht => by simp only [shallowTy, Ty.subst] at ht ⊢; exact shallowTys_subst h ts ht
  | .ext name as, ht => by
    simp only [shallowTy, Ty.subst, Bool.and_eq_true] at ht ⊢; exact ⟨ht.1, elemTys_subst h ht.2⟩
  | .param i, _ => by
    simp only [Ty.subst]
    cases ha : args[i]? with
    | none => rfl
    | some a => simp only [shallowTy, Bool.or_eq_true]; exact .inr (elemTys_get h ha).1
  | .inst t, ht => by
    simp only [shallowTy, Ty.subst, Bool.or_eq_true] at ht ⊢
    rcases ht with hh | hh
    · exact .inl (shallowTy_subst h t hh)
    · exact .inr (plainTy_subst (fun _ _ ha => (elemTys_get h ha).1) t hh)
theorem shallowTys_subst {env : Env} {S T : List String → Bool} {args : List Ty} (h : elemTys env S args = true) :
    ∀ ts, shallowTys env S T ts = true → shallowTys env S T (Ty.substList args ts) = true
  | [], _ => rfl
  | t :: ts, ht => by
    simp only [shallowTys, Ty.substList, Bool.and_eq_true] at ht ⊢
    exact ⟨shallowTy_subst h t ht.1, shallowTys_subst h ts ht.2⟩
end

theorem isTuple_subst (args : List Ty) (t : Ty) : isTuple (fieldTy (t.subst args)) = isTuple (fieldTy t) := by
  have h0 : ∀ t : Ty, isTuple (t.subst args) = isTuple t := by
    intro t
    cases t with
    | param i => cases h : args[i]? <;> simp only [Ty.subst, h, isTuple]
    | _ => simp only [Ty.subst, isTuple]
  cases t with
  | option t => simp only [Ty.subst, fieldTy]; exact h0 t
  | param i => cases h : args[i]? <;> simp only [Ty.subst, h, fieldTy, isTuple]
  | _ => simp only [Ty.subst, fieldTy, isTuple]

/-! ### non-empty types -/

mutual
theorem neTy_enc {env : Env} : ∀ (t : Ty) (v : Val), neTy env t = true → wt env t v = true →
    enc env false t v ≠ []
  | .inst t, v, hn, hw => by
    rw [wt_inst] at hw
    rw [enc_inst]
    simp only [neTy] at hn
    exact neTy_enc t v hn hw
  | .prim p, v, _, hw => by
    rw [wt.eq_def] at hw
    simp only [Ty.strip, Bool.and_eq_true] at hw
    rw [enc.eq_def]
    simp only [Ty.strip]
    exact List.length_pos_iff.1 (encRep_pos _ (Prim.rep_wide p) v hw.2)
  | .option t, v, _, hw => by
    rcases wt_option_cases hw with rfl | ⟨x, rfl, -⟩ <;> rw [enc.eq_def] <;> simp [Ty.strip]
  | .vec t, v, _, hw => by
    rw [wt.eq_def] at hw
    cases v <;> simp [Ty.strip] at hw
    rw [enc.eq_def]; simp [Ty.strip, encLen_ne_nil]
  | .hashMap _ _, v, _, hw => by
    rw [wt.eq_def] at hw
    cases v <;> simp [Ty.strip] at hw
    rw [enc.eq_def]; simp [Ty.strip, encLen_ne_nil]
  | .hashSet _, v, _, hw => by
    rw [wt.eq_def] at hw
    cases v <;> simp [Ty.strip] at hw
    rw [enc.eq_def]; simp [Ty.strip, encLen_ne_nil]
  | .array _ _, v, _, hw => by
    rw [wt.eq_def] at hw
    cases v <;> simp [Ty.strip] at hw
    rw [enc.eq_def]; simp [Ty.strip, encLen_ne_nil]
  | .param _, v, _, hw => by
    rw [wt.eq_def] at hw
    cases v <;> simp [Ty.strip] at hw
  | .nonZero t, v, _, hw => by
    have hz := (wt_nz hw).1
    rw [wt.eq_def] at hw
    cases t <;> simp only [Ty.nzArg, Bool.false_eq_true] at hz
    · simp only [Ty.strip, Bool.and_eq_true] at hw
      rw [enc.eq_def]
      simp only [Ty.strip]
      exact List.length_pos_iff.1 (encRep_pos _ (Prim.rep_wide _) v hw.2)
    all_goals
      cases v <;> simp [Ty.strip] at hw
      rw [enc.eq_def]; simp [Ty.strip, encLen_ne_nil]
  | .tuple ts, v, hn, hw => by
    rw [wt.eq_def] at hw
    cases v <;> simp only [Ty.strip, Bool.and_eq_true, Bool.false_eq_true, and_false] at hw
    rw [enc.eq_def]; simp only [Ty.strip]
    simp only [neTy] at hn
    exact neAny_enc ts _ hn hw.2.2
  | .ext name args, v, hn, hw => by
    rw [wt.eq_def] at hw
    rw [enc.eq_def]
    simp only [neTy] at hn
    have hend : encodeU (BitVec.ofNat 32 endMarker) ≠ [] := by decide
    cases v <;> simp only [Ty.strip, Bool.and_eq_true, Bool.false_eq_true, and_false] at hw ⊢
    · cases henv : env name with
      | none => simp [henv] at hw
      | some d =>
        cases d with
        | enum vars => simp [henv] at hw
        | struct fs =>
          simp only [henv] at hn ⊢
          rw [if_neg (by simpa using hn)]
          simp [hend]
    · rename_i i _
      cases henv : env name with
      | none => simp [henv] at hw
      | some d =>
        cases d with
        | struct fs => simp [henv] at hw
        | enum vars =>
          cases hv : vars[i]? with
          | none => simp [henv, hv] at hw
          | some var =>
            simp only [henv, hv]
            have : ∀ v : BitVec 32, encVariantId v ≠ [] := fun v =>
              List.length_pos_iff.1 (encodeU_length_pos (by omega) v)
            simp [this]
theorem neAny_enc {env : Env} : ∀ (ts : List Ty) (vs : List Val), neAny env ts = true →
    wtTuple env ts vs = true → encTuple env ts vs ≠ []
  | [], _, hn, _ => by simp [neAny] at hn
  | t :: ts, vs, hn, hw => by
    cases vs with
    | nil => simp [wtTuple] at hw
    | cons v vs =>
      simp only [wtTuple, Bool.and_eq_true] at hw
      simp only [neAny, Bool.or_eq_true] at hn
      simp only [encTuple]
      rcases hn with h | h
      · have := neTy_enc t v h hw.1
        simp [this]
      · have := neAny_enc ts vs h hw.2
        simp [this]
end

/-! ### plain types -/

/-- All three value-level conditions. -/
def AllOk (env : Env) (t : Ty) (v : Val) : Prop :=
  faithful env t v = true ∧ noEmpty env t v = true ∧ exactSize env t v = true

theorem allOk_inst {env : Env} {t : Ty} {v : Val} : AllOk env (.inst t) v ↔ AllOk env t v := by
  unfold AllOk; rw [faithful_inst, noEmpty_inst, exactSize_inst]

def PLt (env : Env) (S : List String → Bool) (v : Val) (t : Ty) : Prop :=
  plainTy S t = true → wt env t v = true → AllOk env t v

theorem pl_of_core {env : Env} {S : List String → Bool} {v : Val} (h : ∀ t, core t → PLt env S v t) :
    ∀ t, PLt env S v t
  | .inst t => by
    intro hp hw
    rw [wt_inst] at hw
    rw [allOk_inst]
    exact pl_of_core h t hp hw
  | .prim p => h _ trivial
  | .vec _ => h _ trivial
  | .hashMap _ _ => h _ trivial
  | .hashSet _ => h _ trivial
  | .option _ => h _ trivial
  | .nonZero _ => h _ trivial
  | .tuple _ => h _ trivial
  | .array _ _ => h _ trivial
  | .ext _ _ => h _ trivial
  | .param _ => h _ trivial

theorem allOk_prim {env : Env} {t : Ty} {v : Val} {p : Prim} (h : t.strip = .prim p) : AllOk env t v := by
  refine ⟨?_, ?_, ?_⟩
  · rw [faithful.eq_def]; simp only [h]
  · rw [noEmpty.eq_def]; simp only [h]
  · rw [exactSize.eq_def]; simp only [h]

def TuplePL (env : Env) (S : List String → Bool) (xs : List Val) : Prop :=
  ∀ ts, plainTys S ts = true → wtTuple env ts xs = true →
    faithfulTuple env ts xs = true ∧ noEmptyTuple env ts xs = true ∧ exactTuple env ts xs = true

def FieldsPL (env : Env) (S : List String → Bool) (vs : List Val) : Prop :=
  ∀ fs : List Field, (∀ f ∈ fs, plainTy S f.ty = true ∧ isTuple (fieldTy f.ty) = false) →
    wtFields env fs vs = true →
    faithfulFields env fs vs = true ∧ noEmptyFields env fs vs = true ∧ exactFields env fs vs = true

theorem subst_plain {S : List String → Bool} {args : List Ty} {fs : Fields}
    (h : ∀ f ∈ fs.fields, plainTy S f.ty = true ∧ isTuple (fieldTy f.ty) = false) (ha : plainTys S args = true) :
    ∀ f ∈ (fs.subst args).fields, plainTy S f.ty = true ∧ isTuple (fieldTy f.ty) = false := by
  intro f hf
  simp only [Fields.subst, List.mem_map] at hf
  obtain ⟨g, hg, rfl⟩ := hf
  exact ⟨plainTy_subst (fun _ _ h => plainTys_get ha h) _ (h g hg).1, by rw [isTuple_subst]; exact (h g hg).2⟩

theorem pl_struct {env : Env} {S : List String → Bool} (hS : PlainEnv env S) {vs : List Val} (h4 : FieldsPL env S vs)
    {name : List String} {args : List Ty} : PLt env S (.struct vs) (.ext name args) := by
  intro hp hw
  simp only [plainTy, Bool.and_eq_true] at hp
  rw [wt.eq_def] at hw
  simp only [Ty.strip, Bool.and_eq_true] at hw
  unfold AllOk
  rw [faithful.eq_def, noEmpty.eq_def, exactSize.eq_def]
  simp only [Ty.strip]
  cases henv : env name with
  | none => simp [henv] at hw
  | some d =>
    cases d with
    | enum vars => simp [henv] at hw
    | struct fs =>
      simp only [henv, Bool.and_eq_true] at hw ⊢
      exact h4 _ (subst_plain (hS name _ hp.1 henv fs (List.mem_singleton.2 rfl)) hp.2) hw.2.2

theorem pl_enum {env : Env} {S : List String → Bool} (hS : PlainEnv env S) {vs : List Val} (h4 : FieldsPL env S vs)
    {i : Nat} {name : List String} {args : List Ty} : PLt env S (.enum i vs) (.ext name args) := by
  intro hp hw
  simp only [plainTy, Bool.and_eq_true] at hp
  rw [wt.eq_def] at hw
  simp only [Ty.strip, Bool.and_eq_true] at hw
  unfold AllOk
  rw [faithful.eq_def, noEmpty.eq_def, exactSize.eq_def]
  simp only [Ty.strip]
  cases henv : env name with
  | none => simp [henv] at hw
  | some d =>
    cases d with
    | struct vars => simp [henv] at hw
    | enum vars =>
      cases hv : vars[i]? with
      | none => simp [henv, hv] at hw
      | some var =>
        simp only [henv, hv, Bool.and_eq_true] at hw ⊢
        exact h4 _ (subst_plain (hS name _ hp.1 henv var.fields
          (List.mem_map.2 ⟨var, List.mem_of_getElem? hv, rfl⟩)) hp.2) hw.2.2

def PL2 (env : Env) (S : List String → Bool) (v : Val) : Prop :=
  (∀ t, PLt env S v t) ∧ (∀ x, v = .some x → ∀ t, PLt env S x t)

theorem pl_node {env : Env} {S : List String → Bool} (hS : PlainEnv env S) (v : Val)
    (hsome : ∀ x, v = .some x → ∀ t, PLt env S x t)
    (hlist : ∀ xs, v = .list xs → TuplePL env S xs)
    (hfs : ∀ xs, (v = .struct xs ∨ ∃ i, v = .enum i xs) → FieldsPL env S xs) : ∀ t, PLt env S v t := by
  apply pl_of_core
  intro t hc
  cases t with
  | inst t => exact hc.elim
  | prim p => exact fun _ _ => allOk_prim rfl
  | nonZero t =>
    intro hp hw
    cases t <;> simp only [plainTy, Bool.false_eq_true] at hp
    exact allOk_prim rfl
  | vec _ => intro hp; simp [plainTy] at hp
  | hashMap _ _ => intro hp; simp [plainTy] at hp
  | hashSet _ => intro hp; simp [plainTy] at hp
  | array _ _ => intro hp; simp [plainTy] at hp
  | param _ =>
    intro _ hw
    rw [wt.eq_def] at hw
    cases v <;> simp [Ty.strip] at hw
  | option t =>
    intro hp hw
    rcases wt_option_cases hw with rfl | ⟨x, rfl, hwx⟩
    · refine ⟨?_, ?_, ?_⟩
      · rw [faithful.eq_def]; simp [Ty.strip]
      · rw [noEmpty.eq_def]; simp [Ty.strip]
      · rw [exactSize.eq_def]; simp [Ty.strip]
    · unfold AllOk
      rw [faithful.eq_def, noEmpty.eq_def, exactSize.eq_def]
      simp only [Ty.strip]
      exact hsome x rfl t hp hwx
  | tuple ts =>
    intro hp hw
    rw [wt.eq_def] at hw
    cases v <;> simp only [Ty.strip, Bool.and_eq_true, Bool.false_eq_true, and_false] at hw
    unfold AllOk
    rw [faithful.eq_def, noEmpty.eq_def, exactSize.eq_def]
    simp only [Ty.strip]
    exact hlist _ rfl ts hp hw.2.2
  | ext name args =>
    cases v with
    | struct vs => exact pl_struct hS (hfs _ (.inl rfl))
    | enum i vs => exact pl_enum hS (hfs _ (.inr ⟨i, rfl⟩))
    | _ =>
      intro _ hw
      rw [wt.eq_def] at hw
      simp [Ty.strip] at hw

mutual
theorem pl2 {env : Env} {S : List String → Bool} (hS : PlainEnv env S) : ∀ v : Val, PL2 env S v
  | .bool b => ⟨pl_node hS _ (by simp) (by simp) (by simp), by simp⟩
  | .num b => ⟨pl_node hS _ (by simp) (by simp) (by simp), by simp⟩
  | .str b => ⟨pl_node hS _ (by simp) (by simp) (by simp), by simp⟩
  | .bytes b => ⟨pl_node hS _ (by simp) (by simp) (by simp), by simp⟩
  | .none => ⟨pl_node hS _ (by simp) (by simp) (by simp), by simp⟩
  | .pair a b => ⟨pl_node hS _ (by simp) (by simp) (by simp), by simp⟩
  | .some x => by
    have h : ∀ y, Val.some x = .some y → ∀ t, PLt env S y t := by
      intro y h
      simp only [Val.some.injEq] at h
      subst h
      exact (pl2 hS x).1
    exact ⟨pl_node hS _ h (by simp) (by simp), h⟩
  | .list xs => ⟨pl_node hS _ (by simp) (by
      intro ys h; simp only [Val.list.injEq] at h; subst h; exact (plLists hS xs).1) (by simp), by simp⟩
  | .struct vs => ⟨pl_node hS _ (by simp) (by simp) (by
      intro ys h
      simp only [Val.struct.injEq, reduceCtorEq, exists_false, or_false] at h
      subst h; exact (plLists hS vs).2), by simp⟩
  | .enum i vs => ⟨pl_node hS _ (by simp) (by simp) (by
      intro ys h
      simp only [Val.enum.injEq, reduceCtorEq, false_or] at h
      obtain ⟨_, _, h⟩ := h
      subst h; exact (plLists hS vs).2), by simp⟩
theorem plLists {env : Env} {S : List String → Bool} (hS : PlainEnv env S) :
    ∀ xs : List Val, TuplePL env S xs ∧ FieldsPL env S xs
  | [] => by
    refine ⟨?_, ?_⟩
    · intro ts _ _
      cases ts <;> simp [faithfulTuple, noEmptyTuple, exactTuple]
    · intro fs _ _
      cases fs <;> simp [faithfulFields, noEmptyFields, exactFields]
  | v :: vs => by
    have hv := pl2 hS v
    have hvs := plLists hS vs
    refine ⟨?_, ?_⟩
    · intro ts hp hw
      cases ts with
      | nil => simp [wtTuple] at hw
      | cons t ts =>
        simp only [wtTuple, plainTys, Bool.and_eq_true] at hw hp
        obtain ⟨a, b, c⟩ := hv.1 t hp.1 hw.1
        obtain ⟨d, e, f⟩ := hvs.1 ts hp.2 hw.2
        simp [faithfulTuple, noEmptyTuple, exactTuple, *]
    · intro fs hp hw
      cases fs with
      | nil => simp [wtFields] at hw
      | cons f fs =>
        simp only [wtFields, Bool.and_eq_true] at hw
        obtain ⟨hp1, hp2⟩ := hp f (List.mem_cons_self ..)
        obtain ⟨d, e, g⟩ := hvs.2 fs (fun x hx => hp x (List.mem_cons_of_mem _ hx)) hw.2
        rw [faithfulFields.eq_def, noEmptyFields.eq_def, exactFields.eq_def]
        simp only [d, e, g, Bool.and_true]
        cases hty : f.ty with
        | option t =>
          rw [hty] at hp1 hp2 hw
          simp only [plainTy, fieldTy] at hp1 hp2
          rcases wt_option_cases hw.1 with rfl | ⟨x, rfl, hwx⟩
          · simp
          · obtain ⟨a, b, c⟩ := hv.2 x rfl t hp1 hwx
            simp [a, b, c, hp2]
        | _ =>
          obtain ⟨a, b, c⟩ := hv.1 f.ty hp1 hw.1
          rw [hty] at a b c hp2
          simp only [fieldTy] at hp2
          simp [a, b, c, hp2]
end

theorem plain_ok {env : Env} {S : List String → Bool} (hS : PlainEnv env S) {t : Ty} {v : Val}
    (hp : plainTy S t = true) (hw : wt env t v = true) : AllOk env t v := (pl2 hS v).1 t hp hw

/-! ### shallow types -/

/-- Elements of an element type: each is fine and none is empty. -/
theorem elems_ok {env : Env} {S : List String → Bool} (hS : PlainEnv env S) {t : Ty} (ht : elemTy env S t = true) :
    ∀ {xs : List Val}, wtList env t xs = true →
      faithfulElems env t xs = true ∧ noEmptyList env t xs = true ∧ exactList env t xs = true
  | [], _ => by simp [faithfulElems, noEmptyList, exactList]
  | x :: xs, hw => by
    simp only [elemTy, Bool.and_eq_true] at ht
    simp only [wtList, Bool.and_eq_true] at hw
    obtain ⟨a, b, c⟩ := plain_ok hS ht.1 hw.1
    obtain ⟨d, e, f⟩ := elems_ok hS (t := t) (by simp [elemTy, ht]) hw.2
    have := neTy_enc t x ht.2 hw.1
    simp [faithfulElems, noEmptyList, exactList, a, b, c, d, e, f, this]

theorem entries_ok {env : Env} {S : List String → Bool} (hS : PlainEnv env S) {k w : Ty}
    (ht : (plainTy S k && plainTy S w && (neTy env k || neTy env w)) = true) :
    ∀ {xs : List Val}, wtEntries env k w xs = true →
      faithfulEntries env k w xs = true ∧ noEmptyEntries env k w xs = true ∧ exactEntries env k w xs = true
  | [], _ => by simp [faithfulEntries, noEmptyEntries, exactEntries]
  | x :: xs, hw => by
    have ht' := ht
    simp only [Bool.and_eq_true, Bool.or_eq_true] at ht
    cases x <;> simp only [wtEntries, Bool.and_eq_true, Bool.false_eq_true] at hw
    rename_i p q
    obtain ⟨a, b, c⟩ := plain_ok hS ht.1.1 hw.1.1
    obtain ⟨a', b', c'⟩ := plain_ok hS ht.1.2 hw.1.2
    obtain ⟨d, e, f⟩ := entries_ok hS ht' hw.2
    have : ¬ (enc env false k p = [] ∧ enc env false w q = []) := by
      rintro ⟨h1, h2⟩
      rcases ht.2 with h | h
      · exact neTy_enc k p h hw.1.1 h1
      · exact neTy_enc w q h hw.1.2 h2
    have h2 : (enc env false k p ++ enc env false w q).isEmpty = false := by
      rw [Bool.eq_false_iff, Ne, List.isEmpty_iff, List.append_eq_nil_iff]; exact this
    simp only [faithfulEntries, noEmptyEntries, exactEntries, a, b, c, d, e, f, a', b', c', h2, Bool.and_true,
      Bool.not_false, and_self]

def SHt (env : Env) (S T : List String → Bool) (v : Val) (t : Ty) : Prop :=
  shallowTy env S T t = true → wt env t v = true → (enc env false t v).length < 2 ^ 64 → faithful env t v = true

def TupleSH (env : Env) (S T : List String → Bool) (xs : List Val) : Prop :=
  ∀ ts, shallowTys env S T ts = true → wtTuple env ts xs = true → (encTuple env ts xs).length < 2 ^ 64 →
    faithfulTuple env ts xs = true

def FieldsSH (env : Env) (S T : List String → Bool) (vs : List Val) : Prop :=
  ∀ fs : List Field, (∀ f ∈ fs, shallowTy env S T f.ty = true) → wtFields env fs vs = true →
    (encFields env fs vs).length < 2 ^ 64 → faithfulFields env fs vs = true

theorem sh_of_core {env : Env} {S T : List String → Bool} (hS : PlainEnv env S) {v : Val}
    (h : ∀ t, core t → SHt env S T v t) : ∀ t, SHt env S T v t
  | .inst t => by
    intro hp hw hl
    rw [wt_inst] at hw
    rw [enc_inst] at hl
    rw [faithful_inst]
    simp only [shallowTy, Bool.or_eq_true] at hp
    rcases hp with hp | hp
    · exact sh_of_core hS h t hp hw hl
    · exact (plain_ok hS hp hw).1
  | .prim p => h _ trivial
  | .vec _ => h _ trivial
  | .hashMap _ _ => h _ trivial
  | .hashSet _ => h _ trivial
  | .option _ => h _ trivial
  | .nonZero _ => h _ trivial
  | .tuple _ => h _ trivial
  | .array _ _ => h _ trivial
  | .ext _ _ => h _ trivial
  | .param _ => h _ trivial

theorem sh_elems {env : Env} {S : List String → Bool} (hE : EnvOk env) (hS : PlainEnv env S) {t : Ty} {xs : List Val}
    (ht : elemTy env S t = true) (hw : wtList env t xs = true)
    (hl : (encLen (sizeList env t xs) ++ encList env t xs).length < 2 ^ 64) :
    (decide (sizeList env t xs = (encList env t xs).length) && faithfulElems env t xs) = true := by
  obtain ⟨a, b, c⟩ := elems_ok hS ht hw
  rw [List.length_append] at hl
  have := ((szLists hE xs).1 t hw b (by omega)).2.2.2 c
  simp [a, this]

theorem sh_entries {env : Env} {S : List String → Bool} (hE : EnvOk env) (hS : PlainEnv env S) {k w : Ty}
    {xs : List Val}
    (ht : (plainTy S k && plainTy S w && (neTy env k || neTy env w)) = true) (hw : wtEntries env k w xs = true)
    (hl : (encLen (sizeEntries env k w xs) ++ encEntries env k w xs).length < 2 ^ 64) :
    (decide (sizeEntries env k w xs = (encEntries env k w xs).length) && faithfulEntries env k w xs) = true := by
  obtain ⟨a, b, c⟩ := entries_ok hS ht hw
  rw [List.length_append] at hl
  have := ((szLists hE xs).2.1 k w hw b (by omega)).2.2.2 c
  simp [a, this]

theorem subst_shallow {env : Env} {S T : List String → Bool} {args : List Ty} {fs : Fields}
    (h : ∀ f ∈ fs.fields, shallowTy env S T f.ty = true) (ha : elemTys env S args = true) :
    ∀ f ∈ (fs.subst args).fields, shallowTy env S T f.ty = true := by
  intro f hf
  simp only [Fields.subst, List.mem_map] at hf
  obtain ⟨g, hg, rfl⟩ := hf
  exact shallowTy_subst ha _ (h g hg)

theorem sh_struct {env : Env} {S T : List String → Bool} (hT : ShallowEnv env S T) {vs : List Val}
    (h4 : FieldsSH env S T vs) {name : List String} {args : List Ty} :
    SHt env S T (.struct vs) (.ext name args) := by
  intro hp hw hl
  simp only [shallowTy, Bool.and_eq_true] at hp
  rw [wt.eq_def] at hw
  rw [enc.eq_def] at hl
  simp only [Ty.strip, Bool.and_eq_true] at hw hl
  rw [faithful.eq_def]
  simp only [Ty.strip]
  cases henv : env name with
  | none => rfl
  | some d =>
    cases d with
    | enum vars => rfl
    | struct fs =>
      simp only [henv, Bool.and_eq_true] at hw hl ⊢
      by_cases hk : fs.kind = .unit
      · have hu := hw.2.1
        simp only [Fields.unitOk, hk, bne_self_eq_false, Bool.false_or, List.isEmpty_iff] at hu
        simp [Fields.subst, hu, faithfulFields]
      · rw [if_neg hk, List.length_append] at hl
        exact h4 _ (subst_shallow (hT name _ hp.1 henv fs (List.mem_singleton.2 rfl)) hp.2) hw.2.2 (by omega)

theorem sh_enum {env : Env} {S T : List String → Bool} (hT : ShallowEnv env S T) {vs : List Val}
    (h4 : FieldsSH env S T vs) {i : Nat} {name : List String} {args : List Ty} :
    SHt env S T (.enum i vs) (.ext name args) := by
  intro hp hw hl
  simp only [shallowTy, Bool.and_eq_true] at hp
  rw [wt.eq_def] at hw
  rw [enc.eq_def] at hl
  simp only [Ty.strip, Bool.and_eq_true] at hw hl
  rw [faithful.eq_def]
  simp only [Ty.strip]
  cases henv : env name with
  | none => rfl
  | some d =>
    cases d with
    | struct _ => rfl
    | enum vars =>
      cases hv : vars[i]? with
      | none => simp [henv, hv] at hw
      | some var =>
        simp only [henv, hv, Bool.and_eq_true] at hw hl ⊢
        by_cases hk : var.fields.kind = .unit
        · have hu := hw.2.1
          simp only [Fields.unitOk, hk, bne_self_eq_false, Bool.false_or, List.isEmpty_iff] at hu
          simp [Fields.subst, hu, faithfulFields]
        · rw [if_neg hk, List.length_append, List.length_append] at hl
          exact h4 _ (subst_shallow (hT name _ hp.1 henv var.fields
            (List.mem_map.2 ⟨var, List.mem_of_getElem? hv, rfl⟩)) hp.2) hw.2.2 (by omega)

def SH2 (env : Env) (S T : List String → Bool) (v : Val) : Prop :=
  (∀ t, SHt env S T v t) ∧ (∀ x, v = .some x → ∀ t, SHt env S T x t)

theorem sh_node {env : Env} {S T : List String → Bool} (hE : EnvOk env) (hS : PlainEnv env S)
    (hT : ShallowEnv env S T) (v : Val)
    (hsome : ∀ x, v = .some x → ∀ t, SHt env S T x t)
    (hlist : ∀ xs, v = .list xs → TupleSH env S T xs)
    (hfs : ∀ xs, (v = .struct xs ∨ ∃ i, v = .enum i xs) → FieldsSH env S T xs) : ∀ t, SHt env S T v t := by
  apply sh_of_core hS
  intro t hc
  cases t with
  | inst t => exact hc.elim
  | prim p => exact fun _ _ _ => (allOk_prim (env := env) (v := v) (t := .prim p) rfl).1
  | nonZero t =>
    intro hp hw hl
    cases t <;> simp only [shallowTy, Bool.false_eq_true] at hp
    · exact (allOk_prim (env := env) (v := v) (t := .nonZero (.prim _)) rfl).1
    all_goals
      rw [wt.eq_def] at hw
      rw [enc.eq_def] at hl
      cases v <;> simp only [Ty.strip, Bool.and_eq_true, Bool.false_eq_true, and_false] at hw hl
      rw [faithful.eq_def]
      simp only [Ty.strip]
    · exact sh_elems hE hS hp hw.2 hl
    · exact sh_entries hE hS hp hw.2.1 hl
    · exact sh_elems hE hS hp hw.2.1 hl
  | vec _ =>
    intro hp hw hl
    rw [wt.eq_def] at hw
    rw [enc.eq_def] at hl
    cases v <;> simp only [Ty.strip, Bool.and_eq_true, Bool.false_eq_true, and_false] at hw hl
    rw [faithful.eq_def]
    simp only [Ty.strip]
    exact sh_elems hE hS hp hw.2 hl
  | hashMap _ _ =>
    intro hp hw hl
    rw [wt.eq_def] at hw
    rw [enc.eq_def] at hl
    cases v <;> simp only [Ty.strip, Bool.and_eq_true, Bool.false_eq_true, and_false] at hw hl
    rw [faithful.eq_def]
    simp only [Ty.strip]
    exact sh_entries hE hS hp hw.2.1 hl
  | hashSet _ =>
    intro hp hw hl
    rw [wt.eq_def] at hw
    rw [enc.eq_def] at hl
    cases v <;> simp only [Ty.strip, Bool.and_eq_true, Bool.false_eq_true, and_false] at hw hl
    rw [faithful.eq_def]
    simp only [Ty.strip]
    exact sh_elems hE hS hp hw.2.1 hl
  | array _ _ =>
    intro hp hw hl
    rw [wt.eq_def] at hw
    rw [enc.eq_def] at hl
    cases v <;> simp only [Ty.strip, Bool.and_eq_true, Bool.false_eq_true, and_false] at hw hl
    rw [faithful.eq_def]
    simp only [Ty.strip]
    exact sh_elems hE hS hp hw.2.2 hl
  | param _ =>
    intro _ hw
    rw [wt.eq_def] at hw
    cases v <;> simp [Ty.strip] at hw
  | option t =>
    intro hp hw hl
    rcases wt_option_cases hw with rfl | ⟨x, rfl, hwx⟩
    · rw [faithful.eq_def]; simp [Ty.strip]
    · rw [enc.eq_def] at hl
      simp only [Ty.strip, List.length_cons] at hl
      rw [faithful.eq_def]
      simp only [Ty.strip]
      exact hsome x rfl t hp hwx (by omega)
  | tuple ts =>
    intro hp hw hl
    rw [wt.eq_def] at hw
    rw [enc.eq_def] at hl
    cases v <;> simp only [Ty.strip, Bool.and_eq_true, Bool.false_eq_true, and_false] at hw hl
    rw [faithful.eq_def]
    simp only [Ty.strip]
    exact hlist _ rfl ts hp hw.2.2 hl
  | ext name args =>
    cases v with
    | struct vs => exact sh_struct hT (hfs _ (.inl rfl))
    | enum i vs => exact sh_enum hT (hfs _ (.inr ⟨i, rfl⟩))
    | _ =>
      intro _ hw
      rw [wt.eq_def] at hw
      simp [Ty.strip] at hw

mutual
theorem sh2 {env : Env} {S T : List String → Bool} (hE : EnvOk env) (hS : PlainEnv env S)
    (hT : ShallowEnv env S T) : ∀ v : Val, SH2 env S T v
  | .bool b => ⟨sh_node hE hS hT _ (by simp) (by simp) (by simp), by simp⟩
  | .num b => ⟨sh_node hE hS hT _ (by simp) (by simp) (by simp), by simp⟩
  | .str b => ⟨sh_node hE hS hT _ (by simp) (by simp) (by simp), by simp⟩
  | .bytes b => ⟨sh_node hE hS hT _ (by simp) (by simp) (by simp), by simp⟩
  | .none => ⟨sh_node hE hS hT _ (by simp) (by simp) (by simp), by simp⟩
  | .pair a b => ⟨sh_node hE hS hT _ (by simp) (by simp) (by simp), by simp⟩
  | .some x => by
    have h : ∀ y, Val.some x = .some y → ∀ t, SHt env S T y t := by
      intro y h
      simp only [Val.some.injEq] at h
      subst h
      exact (sh2 hE hS hT x).1
    exact ⟨sh_node hE hS hT _ h (by simp) (by simp), h⟩
  | .list xs => ⟨sh_node hE hS hT _ (by simp) (by
      intro ys h; simp only [Val.list.injEq] at h; subst h; exact (shLists hE hS hT xs).1) (by simp), by simp⟩
  | .struct vs => ⟨sh_node hE hS hT _ (by simp) (by simp) (by
      intro ys h
      simp only [Val.struct.injEq, reduceCtorEq, exists_false, or_false] at h
      subst h; exact (shLists hE hS hT vs).2), by simp⟩
  | .enum i vs => ⟨sh_node hE hS hT _ (by simp) (by simp) (by
      intro ys h
      simp only [Val.enum.injEq, reduceCtorEq, false_or] at h
      obtain ⟨_, _, h⟩ := h
      subst h; exact (shLists hE hS hT vs).2), by simp⟩
theorem shLists {env : Env} {S T : List String → Bool} (hE : EnvOk env) (hS : PlainEnv env S)
    (hT : ShallowEnv env S T) : ∀ xs : List Val, TupleSH env S T xs ∧ FieldsSH env S T xs
  | [] => by
    refine ⟨?_, ?_⟩
    · intro ts _ _ _
      cases ts <;> simp [faithfulTuple]
    · intro fs _ _ _
      cases fs <;> simp [faithfulFields]
  | v :: vs => by
    have hv := sh2 hE hS hT v
    have hvs := shLists hE hS hT vs
    refine ⟨?_, ?_⟩
    · intro ts hp hw hl
      cases ts with
      | nil => simp [wtTuple] at hw
      | cons t ts =>
        simp only [wtTuple, shallowTys, Bool.and_eq_true] at hw hp
        simp only [encTuple, List.length_append] at hl
        have a := hv.1 t hp.1 hw.1 (by omega)
        have d := hvs.1 ts hp.2 hw.2 (by omega)
        simp [faithfulTuple, a, d]
    · intro fs hp hw hl
      cases fs with
      | nil => simp [wtFields] at hw
      | cons f fs =>
        simp only [wtFields, Bool.and_eq_true] at hw
        have hp1 := hp f (List.mem_cons_self ..)
        rw [encFields.eq_def] at hl
        simp only [List.length_append] at hl
        have d := hvs.2 fs (fun x hx => hp x (List.mem_cons_of_mem _ hx)) hw.2 (by omega)
        rw [faithfulFields.eq_def]
        simp only [d, Bool.and_true]
        cases hty : f.ty with
        | option t =>
          rw [hty] at hp1 hw
          simp only [shallowTy] at hp1
          rcases wt_option_cases hw.1 with rfl | ⟨x, rfl, hwx⟩
          · simp
          · simp only [hty, List.length_append] at hl
            have := enc_false_le_root env t x
            exact hv.2 x rfl t hp1 hwx (by omega)
        | _ =>
          have h0 := enc_false_le_root env f.ty v
          have hlen : (enc env true f.ty v).length < 2 ^ 64 := by
            rw [hty] at hl ⊢
            simp only [encField, List.length_append] at hl
            omega
          have a := hv.1 f.ty hp1 hw.1 (by omega)
          rw [hty] at a
          exact a
end

theorem shallow_faithful {env : Env} {S T : List String → Bool} (hE : EnvOk env) (hS : PlainEnv env S)
    (hT : ShallowEnv env S T) {t : Ty} {v : Val} (hp : shallowTy env S T t = true) (hw : wt env t v = true)
    (hl : (enc env false t v).length < 2 ^ 64) : faithful env t v = true := (sh2 hE hS hT v).1 t hp hw hl

end Mabo.Codegen
