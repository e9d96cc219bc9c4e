import Verif.Compiler.ValidateLemmas3
import Verif.Spec.Simplify
import Std.Data.String.ToNat
/-! Simplification keeps the schema. -/
namespace Mabo.Simplify
open Mabo.Spec Mabo.Compiler

mutual
theorem simplifyType_same : ∀ t, SameType t (simplifyType t)
  | .prim p => .prim p
  | .vec t => .vec (simplifyType_same t)
  | .hashMap k v => .hashMap (simplifyType_same k) (simplifyType_same v)
  | .hashSet t => .hashSet (simplifyType_same t)
  | .option t => .option (simplifyType_same t)
  | .nonZero t => .nonZero (simplifyType_same t)
  | .tuple ts _ => .tuple (simplifyTypes_same ts)
  | .array t _ => .array (simplifyType_same t)
  | .external _ _ ts _ => .external (simplifyTypes_same ts)
theorem simplifyTypes_same : ∀ ts, SameTypes ts (simplifyTypes ts)
  | [] => .nil
  | t :: ts => .cons (simplifyType_same t) (simplifyTypes_same ts)
end

/-- Either all ids are fine or the result is `none`. -/
def okIds (checked : Bool) (ids : List (BitVec 32)) : Prop := checked = true → ∀ id ∈ ids, id.toNat ≠ 2 ^ 32 - 1

theorem nextId_some {checked : Bool} {g : BitVec 32} {o : Option (BitVec 32)}
    (h : checked = true → (o.getD g).toNat ≠ 2 ^ 32 - 1) : nextId checked g o = some (o.getD g, o.getD g + 1) := by
  rw [nextId_eq]; exact if_neg (fun hc => h hc.1 hc.2)

theorem nextId_none {checked : Bool} {g : BitVec 32} {o : Option (BitVec 32)}
    (h : ¬ (checked = true → (o.getD g).toNat ≠ 2 ^ 32 - 1)) : nextId checked g o = none := by
  rw [nextId_eq]
  have h : checked = true ∧ (o.getD g).toNat = 2 ^ 32 - 1 := by
    refine ⟨?_, ?_⟩
    · exact Classical.byContradiction fun hc => h fun h' => absurd h' hc
    · exact Classical.byContradiction fun hc => h fun _ => hc
  exact if_pos h

theorem okIds_cons {checked : Bool} {id : BitVec 32} {ids : List (BitVec 32)} :
    okIds checked (id :: ids) ↔ (checked = true → id.toNat ≠ 2 ^ 32 - 1) ∧ okIds checked ids := by
  simp only [okIds, List.mem_cons, forall_eq_or_imp]
  exact ⟨fun h => ⟨fun hc => (h hc).1, fun hc => (h hc).2⟩, fun h hc => ⟨h.1 hc, h.2 hc⟩⟩

theorem simplifyNamed_spec (checked : Bool) : ∀ (fs : List Ast.NamedField) (g : BitVec 32),
    (okIds checked (assignFrom g (fs.map (·.id))) → ∃ gs, simplifyNamed checked g fs = some gs ∧
      gs.map (·.name) = fs.map (·.name) ∧ gs.map (·.comment) = fs.map (·.comment) ∧
      SameTypes (fs.map (·.ty)) (gs.map (·.ty)) ∧ gs.map (·.id) = assignFrom g (fs.map (·.id))) ∧
    (¬ okIds checked (assignFrom g (fs.map (·.id))) → simplifyNamed checked g fs = none)
  | [], g => ⟨fun _ => ⟨[], rfl, rfl, rfl, .nil, rfl⟩, fun h => absurd (fun _ => by simp [assignFrom]) h⟩
  | f :: fs, g => by
    have ⟨ih1, ih2⟩ := simplifyNamed_spec checked fs (f.id.getD g + 1)
    simp only [List.map_cons, assignFrom_cons, okIds_cons]
    constructor
    · rintro ⟨h1, h2⟩
      have ⟨gs, hg, hn, hc, ht, hi⟩ := ih1 h2
      refine ⟨⟨f.comment, f.name, simplifyType f.ty, f.id.getD g⟩ :: gs, ?_, by simp [hn], by simp [hc],
        .cons (simplifyType_same _) ht, by simp [hi]⟩
      simp only [simplifyNamed, nextId_some h1, Option.bind_eq_bind, Option.bind_some, hg]; rfl
    · intro h
      simp only [simplifyNamed, Option.bind_eq_bind]
      by_cases h1 : checked = true → (f.id.getD g).toNat ≠ 2 ^ 32 - 1
      · rw [nextId_some h1]
        simp only [Option.bind_some]
        rw [ih2 (fun h2 => h ⟨h1, h2⟩)]; rfl
      · rw [nextId_none h1]; rfl

theorem simplifyUnnamed_spec (checked : Bool) : ∀ (fs : List Ast.UnnamedField) (i : Nat) (g : BitVec 32),
    (okIds checked (assignFrom g (fs.map (·.id))) → ∃ gs, simplifyUnnamed checked i g fs = some gs ∧
      gs.map (·.name) = (List.range' i fs.length).map (fun k => "n" ++ Nat.repr k) ∧ (∀ g ∈ gs, g.comment = []) ∧
      SameTypes (fs.map (·.ty)) (gs.map (·.ty)) ∧ gs.map (·.id) = assignFrom g (fs.map (·.id))) ∧
    (¬ okIds checked (assignFrom g (fs.map (·.id))) → simplifyUnnamed checked i g fs = none)
  | [], i, g => ⟨fun _ => ⟨[], rfl, rfl, by simp, .nil, rfl⟩, fun h => absurd (fun _ => by simp [assignFrom]) h⟩
  | f :: fs, i, g => by
    have ⟨ih1, ih2⟩ := simplifyUnnamed_spec checked fs (i + 1) (f.id.getD g + 1)
    simp only [List.map_cons, assignFrom_cons, okIds_cons]
    constructor
    · rintro ⟨h1, h2⟩
      have ⟨gs, hg, hn, hc, ht, hi⟩ := ih1 h2
      refine ⟨⟨[], "n" ++ Nat.repr i, simplifyType f.ty, f.id.getD g⟩ :: gs, ?_, ?_, ?_,
        .cons (simplifyType_same _) ht, by simp [hi]⟩
      · simp only [simplifyUnnamed, nextId_some h1, Option.bind_eq_bind, Option.bind_some, hg]; rfl
      · simp [List.range'_succ, hn]
      · intro x hx
        rcases List.mem_cons.1 hx with rfl | hx
        · rfl
        · exact hc x hx
    · intro h
      simp only [simplifyUnnamed, Option.bind_eq_bind]
      by_cases h1 : checked = true → (f.id.getD g).toNat ≠ 2 ^ 32 - 1
      · rw [nextId_some h1]
        simp only [Option.bind_some]
        rw [ih2 (fun h2 => h ⟨h1, h2⟩)]; rfl
      · rw [nextId_none h1]; rfl

theorem unnamed_nodup (i n : Nat) : ((List.range' i n).map (fun k => "n" ++ Nat.repr k)).Nodup := by
  have hr : (List.range' i n).Nodup := List.nodup_range'
  refine List.Pairwise.map _ ?_ hr
  intro a b hab h
  apply hab
  have : (Nat.repr a).toList = (Nat.repr b).toList := by
    have := congrArg String.toList h
    simpa [String.toList_append] using this
  exact Nat.repr_inj.1 (String.toList_inj.1 this)

theorem okIds_iff {checked : Bool} {l : List (Option (BitVec 32))} :
    okIds checked (assignFrom idStart l) ↔ (checked = true → NoOverflow l) := by
  simp only [okIds, noOverflow_iff]; rfl

theorem simplifyFields_spec (checked : Bool) (fs : Ast.Fields) :
    ((checked = true → NoOverflow (givenIds fs)) → ∃ gs, simplifyFields checked fs = some gs ∧ SameFields fs gs) ∧
    (¬ (checked = true → NoOverflow (givenIds fs)) → simplifyFields checked fs = none) := by
  cases fs with
  | named fs tr =>
    have ⟨h1, h2⟩ := simplifyNamed_spec checked fs idStart
    rw [okIds_iff] at h1 h2
    constructor
    · intro h
      have ⟨gs, hg, hn, hc, ht, hi⟩ := h1 h
      refine ⟨⟨gs, .named⟩, by simp [simplifyFields, hg], .named hn hc ht (hi ▸ assigned_assignFrom _)⟩
    · intro h
      simp [simplifyFields, h2 h]
  | unnamed fs tr =>
    have ⟨h1, h2⟩ := simplifyUnnamed_spec checked fs 0 idStart
    rw [okIds_iff] at h1 h2
    constructor
    · intro h
      have ⟨gs, hg, hn, hc, ht, hi⟩ := h1 h
      refine ⟨⟨gs, .unnamed⟩, by simp [simplifyFields, hg], .unnamed ?_ hc ht (hi ▸ assigned_assignFrom _)⟩
      rw [hn]; exact unnamed_nodup _ _
    · intro h
      simp [simplifyFields, h2 h]
  | unit =>
    refine ⟨fun _ => ⟨_, rfl, .unit⟩, fun h => absurd (fun _ => ?_) h⟩
    rw [noOverflow_iff]; simp [givenIds, assignFrom]

/-- No overflow in the ids of the fields of the variants. -/
def okVariants (checked : Bool) (vs : List Ast.Variant) : Prop :=
  ∀ v ∈ vs, checked = true → NoOverflow (givenIds v.fields)

theorem simplifyVariants_spec (checked : Bool) : ∀ (vs : List Ast.Variant) (g : BitVec 32),
    (okIds checked (assignFrom g (vs.map (·.id))) ∧ okVariants checked vs → ∃ gs, simplifyVariants checked g vs = some gs ∧
      gs.map (·.name) = vs.map (·.name) ∧ gs.map (·.comment) = vs.map (·.comment) ∧
      SameFieldLists (vs.map (·.fields)) (gs.map (·.fields)) ∧ gs.map (·.id) = assignFrom g (vs.map (·.id))) ∧
    (¬ (okIds checked (assignFrom g (vs.map (·.id))) ∧ okVariants checked vs) → simplifyVariants checked g vs = none)
  | [], g => ⟨fun _ => ⟨[], rfl, rfl, rfl, .nil, rfl⟩,
      fun h => absurd ⟨fun _ => by simp [assignFrom], fun _ hv => by simp at hv⟩ h⟩
  | v :: vs, g => by
    have ⟨ih1, ih2⟩ := simplifyVariants_spec checked vs (v.id.getD g + 1)
    have ⟨f1, f2⟩ := simplifyFields_spec checked v.fields
    simp only [List.map_cons, assignFrom_cons, okIds_cons]
    constructor
    · rintro ⟨⟨h1, h2⟩, h3⟩
      have ⟨gs, hg, hn, hc, ht, hi⟩ := ih1 ⟨h2, fun w hw => h3 w (by simp [hw])⟩
      have ⟨fs, hf, hs⟩ := f1 (h3 v (by simp))
      refine ⟨⟨v.comment, v.name, fs, v.id.getD g⟩ :: gs, ?_, by simp [hn], by simp [hc], .cons hs ht, by simp [hi]⟩
      simp only [simplifyVariants, nextId_some h1, Option.bind_eq_bind, Option.bind_some, hg, hf]; rfl
    · intro h
      simp only [simplifyVariants, Option.bind_eq_bind]
      by_cases hv : checked = true → NoOverflow (givenIds v.fields)
      · have ⟨fs, hf, hs⟩ := f1 hv
        rw [hf]
        simp only [Option.bind_some]
        by_cases h1 : checked = true → (v.id.getD g).toNat ≠ 2 ^ 32 - 1
        · rw [nextId_some h1]
          simp only [Option.bind_some]
          rw [ih2 (fun ⟨h2, h3⟩ => h ⟨⟨h1, h2⟩, fun w hw => by
            rcases List.mem_cons.1 hw with rfl | hw
            · exact hv
            · exact h3 w hw⟩)]; rfl
        · rw [nextId_none h1]; rfl
      · rw [f2 hv]; rfl

/-- No overflow in the ids inside a definition. -/
def okDef (checked : Bool) (d : Ast.Definition) : Prop :=
  ∀ d', Inside d' d → ∀ l, IdList d' l → checked = true → NoOverflow l

theorem okDef_struct {checked : Bool} {s : Ast.Struct} :
    okDef checked (.struct s) ↔ (checked = true → NoOverflow (givenIds s.fields)) := by
  constructor
  · intro h; exact h _ .here _ (.fields (.struct s))
  · intro h d' hd l hl
    have := inside_not_module hd (by simp); subst this
    cases hl with | fields hf => cases hf; exact h

theorem okDef_enum {checked : Bool} {e : Ast.Enum} :
    okDef checked (.enum e) ↔ (checked = true → NoOverflow (e.variants.map (·.id))) ∧ okVariants checked e.variants := by
  constructor
  · intro h
    exact ⟨h _ .here _ (.variants e), fun v hv => h _ .here _ (.fields (.variant e v hv))⟩
  · rintro ⟨h1, h2⟩ d' hd l hl
    have := inside_not_module hd (by simp); subst this
    cases hl with
    | variants => exact h1
    | fields hf => cases hf with | variant _ v hv => exact h2 v hv

mutual
theorem simplifyDefinition_spec (checked : Bool) : ∀ d : Ast.Definition,
    (okDef checked d → ∃ e, simplifyDefinition checked d = some e ∧ SameDef d e) ∧
    (¬ okDef checked d → simplifyDefinition checked d = none)
  | .module c n ds => by
    have ⟨h1, h2⟩ := simplifyDefinitions_spec checked ds
    have hiff : okDef checked (.module c n ds) ↔ ∀ d ∈ ds, okDef checked d := by
      constructor
      · intro h d hd d' hi; exact h d' (.module hd hi)
      · intro h d' hi l hl
        cases hi with
        | here => cases hl with | fields hf => cases hf
        | module hd hi => exact h _ hd d' hi l hl
    rw [hiff]
    constructor
    · intro h
      have ⟨es, he, hs⟩ := h1 h
      exact ⟨_, by simp [simplifyDefinition, he], .module hs⟩
    · intro h
      simp [simplifyDefinition, h2 h]
  | .struct s => by
    have ⟨h1, h2⟩ := simplifyFields_spec checked s.fields
    rw [okDef_struct]
    constructor
    · intro h
      have ⟨es, he, hs⟩ := h1 h
      exact ⟨_, by simp [simplifyDefinition, he], .struct hs⟩
    · intro h
      simp [simplifyDefinition, h2 h]
  | .enum e => by
    have ⟨h1, h2⟩ := simplifyVariants_spec checked e.variants idStart
    rw [okIds_iff] at h1 h2
    rw [okDef_enum]
    constructor
    · intro h
      have ⟨gs, hg, hn, hc, ht, hi⟩ := h1 h
      exact ⟨_, by simp [simplifyDefinition, hg], .enum hn hc (hi ▸ assigned_assignFrom _) ht⟩
    · intro h
      simp [simplifyDefinition, h2 h]
  | .typeAlias a => by
    refine ⟨fun _ => ⟨_, rfl, .typeAlias (simplifyType_same _)⟩, fun h => absurd ?_ h⟩
    intro d' hd l hl
    have := inside_not_module hd (by simp); subst this
    cases hl with | fields hf => cases hf
  | .const a => by
    refine ⟨fun _ => ⟨_, rfl, .const (simplifyType_same _)⟩, fun h => absurd ?_ h⟩
    intro d' hd l hl
    have := inside_not_module hd (by simp); subst this
    cases hl with | fields hf => cases hf
  | .import a => by
    refine ⟨fun _ => ⟨_, rfl, .import a⟩, fun h => absurd ?_ h⟩
    intro d' hd l hl
    have := inside_not_module hd (by simp); subst this
    cases hl with | fields hf => cases hf
theorem simplifyDefinitions_spec (checked : Bool) : ∀ ds : List Ast.Definition,
    ((∀ d ∈ ds, okDef checked d) → ∃ es, simplifyDefinitions checked ds = some es ∧ SameDefs ds es) ∧
    (¬ (∀ d ∈ ds, okDef checked d) → simplifyDefinitions checked ds = none)
  | [] => ⟨fun _ => ⟨[], rfl, .nil⟩, fun h => absurd (fun _ hd => by simp at hd) h⟩
  | d :: ds => by
    have ⟨h1, h2⟩ := simplifyDefinition_spec checked d
    have ⟨i1, i2⟩ := simplifyDefinitions_spec checked ds
    constructor
    · intro h
      have ⟨e, he, hs⟩ := h1 (h d (by simp))
      have ⟨es, hes, hss⟩ := i1 (fun d hd => h d (by simp [hd]))
      exact ⟨_, by simp [simplifyDefinitions, he, hes], .cons hs hss⟩
    · intro h
      by_cases hd : okDef checked d
      · have ⟨e, he, hs⟩ := h1 hd
        have := i2 (fun hds => h fun x hx => by
          rcases List.mem_cons.1 hx with rfl | hx
          · exact hd
          · exact hds x hx)
        simp [simplifyDefinitions, he, this]
      · simp [simplifyDefinitions, h2 hd]
end

theorem okDefs_iff {checked : Bool} {s : Ast.Schema} :
    (∀ d ∈ s.definitions, okDef checked d) ↔ (checked = true → NoIdOverflow s) := by
  constructor
  · intro h hc d hd l hl
    have ⟨e, he, hi⟩ := occurs_iff.1 hd
    exact h e he d hi l hl hc
  · intro h d hd d' hi l hl hc
    exact h hc d' (occurs_iff.2 ⟨d, hd, hi⟩) l hl

end Mabo.Simplify
