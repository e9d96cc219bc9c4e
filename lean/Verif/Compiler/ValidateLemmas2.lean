import Verif.Compiler.ValidateLemmas
/-! Errors of the id checks, and the name, generics and tuple checks. -/
namespace Mabo.Compiler
open Mabo.Ast Mabo.Spec

/-! ### Reported id clashes -/

theorem getElem?_of_map {α β : Type} {f : α → β} {l : List α} {i : Nat} {b : β} (h : (l.map f)[i]? = some b) :
    ∃ a, l[i]? = some a ∧ f a = b := by
  rw [List.getElem?_map, Option.map_eq_some_iff] at h; exact h

theorem map_getElem? {α β : Type} {f : α → β} {l : List α} {i : Nat} {a : α} (h : l[i]? = some a) :
    (l.map f)[i]? = some (f a) := by
  rw [List.getElem?_map, h]; rfl

theorem namedIds_err {checked : Bool} {fs : List NamedField} {e : DuplicateId}
    (h : namedIds checked idStart [] fs = .err e) :
    ∃ i j f g id, fs[i]? = some f ∧ fs[j]? = some g ∧ j < i ∧ e = .named id f.name g.name ∧
      (assignFrom 1 (fs.map (·.id)))[i]? = some id ∧ (assignFrom 1 (fs.map (·.id)))[j]? = some id ∧
      ((assignFrom 1 (fs.map (·.id))).take i).Nodup := by
  rw [namedIds_scan] at h
  have hk := namedItems_keys checked fs idStart
  have hl := namedItems_labels checked fs idStart
  rcases scan_err (by simp) h with ⟨x, hx, hh⟩ | ⟨i, x, o, hi, he, hn, hw⟩
  · have ⟨hp, hq⟩ := namedItems_pre checked fs idStart x hx
    rw [hp, hq] at hh
    rcases hh with hh | hh
    · exact absurd hh idPre_err
    · cases hh
  · rcases hw with hw | ⟨j, y, hj, hy, hyk, hyl⟩
    · simp at hw
    · have hxl := map_getElem? (f := (·.label)) hi
      have hyl' := map_getElem? (f := (·.label)) hy
      have hxk := map_getElem? (f := (·.key)) hi
      have hyk' := map_getElem? (f := (·.key)) hy
      rw [hl] at hxl hyl'
      rw [hk] at hxk hyk'
      have ⟨f, hf, hfn⟩ := getElem?_of_map hxl
      have ⟨g, hg, hgn⟩ := getElem?_of_map hyl'
      refine ⟨i, j, f, g, x.key, hf, hg, hj, ?_, hxk, hyk ▸ hyk', ?_⟩
      · rw [he, hfn, hgn, hyl]
      · simp only [List.map_nil, List.nil_append, List.map_take, hk] at hn; exact hn

theorem unnamedIds_err {checked : Bool} {fs : List UnnamedField} {e : DuplicateId}
    (h : unnamedIds checked 0 idStart [] fs = .err e) :
    ∃ i j id, i < fs.length ∧ j < i ∧ e = .unnamed id (i + 1) (j + 1) ∧
      (assignFrom 1 (fs.map (·.id)))[i]? = some id ∧ (assignFrom 1 (fs.map (·.id)))[j]? = some id ∧
      ((assignFrom 1 (fs.map (·.id))).take i).Nodup := by
  rw [unnamedIds_scan] at h
  have hk := unnamedItems_keys checked fs 0 idStart
  rcases scan_err (by simp) h with ⟨x, hx, hh⟩ | ⟨i, x, o, hi, he, hn, hw⟩
  · have ⟨hp, hq⟩ := unnamedItems_pre checked fs 0 idStart x hx
    rw [hp, hq] at hh
    rcases hh with hh | hh
    · exact absurd hh idPre_err
    · cases hh
  · rcases hw with hw | ⟨j, y, hj, hy, hyk, hyl⟩
    · simp at hw
    · have hxl := unnamedItems_labels checked fs 0 _ i x hi
      have hyl' := unnamedItems_labels checked fs 0 _ j y hy
      have hxk := map_getElem? (f := (·.key)) hi
      have hyk' := map_getElem? (f := (·.key)) hy
      rw [hk] at hxk hyk'
      have hlen : i < fs.length := by
        have := (List.getElem?_eq_some_iff.1 hxk).1
        rw [assignFrom_length, List.length_map] at this; exact this
      refine ⟨i, j, x.key, hlen, hj, ?_, hxk, hyk ▸ hyk', ?_⟩
      · rw [he, hxl, ← hyl, hyl']; simp
      · simp only [List.map_nil, List.nil_append, List.map_take, hk] at hn; exact hn

theorem variantIds_err {checked : Bool} {e : Enum} {d : DuplicateId}
    (h : validateEnumIds checked e = .err d) :
    (∃ v ∈ e.variants, validateFieldIds checked v.fields = .err d) ∨
    ∃ i j f g id, e.variants[i]? = some f ∧ e.variants[j]? = some g ∧ j < i ∧ d = .variant id f.name g.name ∧
      (assignFrom 1 (e.variants.map (·.id)))[i]? = some id ∧ (assignFrom 1 (e.variants.map (·.id)))[j]? = some id ∧
      ((assignFrom 1 (e.variants.map (·.id))).take i).Nodup := by
  rw [validateEnumIds, variantIds_scan] at h
  have hk := variantItems_keys checked e.variants idStart
  have hl := variantItems_labels checked e.variants idStart
  have hpo := variantItems_posts checked e.variants idStart
  rcases scan_err (by simp) h with ⟨x, hx, hh⟩ | ⟨i, x, o, hi, he, hn, hw⟩
  · rw [variantItems_pre checked e.variants idStart x hx] at hh
    rcases hh with hh | hh
    · exact absurd hh idPre_err
    · have : x.post ∈ (variantItems checked idStart e.variants).map (·.post) := List.mem_map.2 ⟨x, hx, rfl⟩
      rw [hpo] at this
      have ⟨v, hv, hve⟩ := List.mem_map.1 this
      exact .inl ⟨v, hv, by rw [hve, hh]⟩
  · rcases hw with hw | ⟨j, y, hj, hy, hyk, hyl⟩
    · simp at hw
    · have hxl := map_getElem? (f := (·.label)) hi
      have hyl' := map_getElem? (f := (·.label)) hy
      have hxk := map_getElem? (f := (·.key)) hi
      have hyk' := map_getElem? (f := (·.key)) hy
      rw [hl] at hxl hyl'
      rw [hk] at hxk hyk'
      have ⟨f, hf, hfn⟩ := getElem?_of_map hxl
      have ⟨g, hg, hgn⟩ := getElem?_of_map hyl'
      refine .inr ⟨i, j, f, g, x.key, hf, hg, hj, ?_, hxk, hyk ▸ hyk', ?_⟩
      · rw [he, hfn, hgn, hyl]
      · simp only [List.map_nil, List.nil_append, List.map_take, hk] at hn; exact hn

theorem validateFieldIds_panic {checked : Bool} {fs : Fields} (h : validateFieldIds checked fs = .panic) :
    checked = true ∧ ¬ NoOverflow (givenIds fs) := by
  rw [noOverflow_iff]
  cases fs with
  | named fs tr =>
    simp only [validateFieldIds, namedIds_scan] at h
    have ⟨x, hx, hh⟩ := scan_panic h
    have ⟨hp, hq⟩ := namedItems_pre checked fs idStart x hx
    rw [hp, hq] at hh
    rcases hh with hh | hh
    · have ⟨h1, h2⟩ := idPre_panic.1 hh
      refine ⟨h1, fun hc => hc x.key ?_ h2⟩
      have := namedItems_keys checked fs idStart
      exact this ▸ List.mem_map.2 ⟨x, hx, rfl⟩
    · cases hh
  | unnamed fs tr =>
    simp only [validateFieldIds, unnamedIds_scan] at h
    have ⟨x, hx, hh⟩ := scan_panic h
    have ⟨hp, hq⟩ := unnamedItems_pre checked fs 0 idStart x hx
    rw [hp, hq] at hh
    rcases hh with hh | hh
    · have ⟨h1, h2⟩ := idPre_panic.1 hh
      refine ⟨h1, fun hc => hc x.key ?_ h2⟩
      have := unnamedItems_keys checked fs 0 idStart
      exact this ▸ List.mem_map.2 ⟨x, hx, rfl⟩
    · cases hh
  | unit => cases h

theorem validateEnumIds_panic {checked : Bool} {e : Enum} (h : validateEnumIds checked e = .panic) :
    checked = true ∧ (¬ NoOverflow (e.variants.map (·.id)) ∨ ∃ v ∈ e.variants, ¬ NoOverflow (givenIds v.fields)) := by
  rw [validateEnumIds, variantIds_scan] at h
  have ⟨x, hx, hh⟩ := scan_panic h
  rw [variantItems_pre checked e.variants idStart x hx] at hh
  rcases hh with hh | hh
  · have ⟨h1, h2⟩ := idPre_panic.1 hh
    refine ⟨h1, .inl ?_⟩
    rw [noOverflow_iff]
    have := variantItems_keys checked e.variants idStart
    exact fun hc => hc x.key (this ▸ List.mem_map.2 ⟨x, hx, rfl⟩) h2
  · have : x.post ∈ (variantItems checked idStart e.variants).map (·.post) := List.mem_map.2 ⟨x, hx, rfl⟩
    rw [variantItems_posts] at this
    have ⟨v, hv, hve⟩ := List.mem_map.1 this
    have ⟨h1, h2⟩ := validateFieldIds_panic (hve.trans hh)
    exact ⟨h1, .inr ⟨v, hv, h2⟩⟩

/-! ### Names -/

/-- Names as scan items. -/
def nameItem {ε : Type} (n : String) (post : Outcome ε) : Item String Unit ε := ⟨.ok, n, (), post⟩

theorem fieldNames_scan : ∀ (fs : List NamedField) (vis : List (String × Unit)),
    fieldNames vis fs = scan (fun n _ _ => .field n) vis (fs.map fun f => nameItem f.name .ok)
  | [], _ => rfl
  | f :: fs, vis => by
    simp only [fieldNames, List.map_cons, scan, nameItem, andThen_ok_left]
    cases visit f.name () vis with
    | inl o => rfl
    | inr v => exact fieldNames_scan fs v

theorem variantNames_scan : ∀ (vs : List Variant) (vis : List (String × Unit)),
    variantNames vis vs =
      scan (fun n _ _ => .variant n) vis (vs.map fun v => nameItem v.name (validateFieldNames v.fields))
  | [], _ => rfl
  | f :: fs, vis => by
    simp only [variantNames, List.map_cons, scan, nameItem, andThen_ok_left]
    cases visit f.name () vis with
    | inl o => rfl
    | inr v => simp only []; rw [variantNames_scan fs v]; rfl

theorem definitionName_introduced : ∀ d : Definition, introduced d = (definitionName d).toList
  | .module _ _ _ | .struct _ | .enum _ | .typeAlias _ | .const _ => rfl
  | .import ⟨_, some name⟩ => rfl
  | .import ⟨segments, none⟩ => by
    simp only [introduced, definitionName]
    cases hs : segments.reverse with
    | nil =>
      have : segments = [] := by simpa using hs
      subst this; rfl
    | cons x xs =>
      have : segments = xs.reverse ++ [x] := by
        have := congrArg List.reverse hs; simpa using this
      subst this
      simp

theorem moduleNames_scan : ∀ (ds : List Definition) (vis : List (String × Unit)),
    moduleNames vis ds = scan (fun n _ _ => .inModule n) vis ((ds.flatMap introduced).map fun n => nameItem n .ok)
  | [], _ => rfl
  | d :: ds, vis => by
    simp only [moduleNames, List.flatMap_cons, definitionName_introduced d]
    cases definitionName d with
    | none => simp only [Option.toList, List.nil_append]; exact moduleNames_scan ds vis
    | some n =>
      simp only [Option.toList, List.cons_append, List.nil_append, List.map_cons, scan, nameItem, andThen_ok_left]
      cases visit n () vis with
      | inl o => rfl
      | inr v => exact moduleNames_scan ds v

theorem nameItems_ok {ε : Type} {mk : String → Unit → Unit → ε} (l : List String) :
    scan mk [] (l.map fun n => nameItem n .ok) = .ok ↔ l.Nodup := by
  rw [scan_ok]
  simp [nameItem, List.map_map, Function.comp_def]

theorem validateFieldNames_ok {fs : Fields} : validateFieldNames fs = .ok ↔ (fieldNamesOf fs).Nodup := by
  cases fs with
  | named fs tr =>
    simp only [validateFieldNames, fieldNames_scan, fieldNamesOf]
    rw [← nameItems_ok (mk := fun n _ _ => DuplicateName.field n), List.map_map]; rfl
  | unnamed fs tr => simp [validateFieldNames, fieldNamesOf]
  | unit => simp [validateFieldNames, fieldNamesOf]

theorem validateEnumNames_ok {e : Enum} :
    validateEnumNames e = .ok ↔ (e.variants.map (·.name)).Nodup ∧
      ∀ v ∈ e.variants, (fieldNamesOf v.fields).Nodup := by
  rw [validateEnumNames, variantNames_scan, scan_ok]
  simp only [List.mem_map, forall_exists_index, and_imp, forall_apply_eq_imp_iff₂, nameItem, true_and,
    List.map_map, Function.comp_def, List.map_nil, List.not_mem_nil, not_false_eq_true, implies_true, and_true,
    validateFieldNames_ok]
  exact And.comm

theorem validateNamesInModule_ok {ds : List Definition} :
    validateNamesInModule ds = .ok ↔ (ds.flatMap introduced).Nodup := by
  rw [validateNamesInModule, moduleNames_scan, nameItems_ok]

theorem nameItems_err {ε : Type} {mk : String → Unit → Unit → ε} {xs : List (Item String Unit ε)} {e : ε}
    (hpre : ∀ x ∈ xs, x.pre = .ok) (h : scan mk [] xs = .err e) :
    (∃ x ∈ xs, x.post = .err e) ∨ ∃ n, e = mk n () () ∧ Twice (xs.map (·.key)) n := by
  rcases scan_err (by simp) h with ⟨x, hx, hh⟩ | ⟨i, x, o, hi, he, hn, hw⟩
  · rw [hpre x hx] at hh
    rcases hh with hh | hh
    · cases hh
    · exact .inl ⟨x, hx, hh⟩
  · rcases hw with hw | ⟨j, y, hj, hy, hyk, hyl⟩
    · simp at hw
    · refine .inr ⟨x.key, he, i, j, hj, map_getElem? hi, hyk ▸ map_getElem? hy, ?_⟩
      simpa [List.map_take] using hn

theorem nameItems_panic {ε : Type} {mk : String → Unit → Unit → ε} {xs : List (Item String Unit ε)}
    (hpre : ∀ x ∈ xs, x.pre = .ok ∧ x.post ≠ .panic) : scan mk [] xs ≠ .panic := by
  intro h
  have ⟨x, hx, hh⟩ := scan_panic h
  have ⟨h1, h2⟩ := hpre x hx
  rw [h1] at hh
  rcases hh with hh | hh
  · cases hh
  · exact h2 hh

theorem validateFieldNames_err {fs : Fields} {e : DuplicateName} (h : validateFieldNames fs = .err e) :
    ∃ n, e = .field n ∧ Twice (fieldNamesOf fs) n := by
  cases fs with
  | named fs tr =>
    simp only [validateFieldNames, fieldNames_scan] at h
    rcases nameItems_err (by simp [nameItem]) h with ⟨x, hx, hh⟩ | ⟨n, he, ht⟩
    · have ⟨f, _, hf⟩ := List.mem_map.1 hx
      subst hf; cases hh
    · refine ⟨n, he, ?_⟩
      rw [List.map_map] at ht; exact ht
  | unnamed fs tr => cases h
  | unit => cases h

theorem validateFieldNames_panic {fs : Fields} : validateFieldNames fs ≠ .panic := by
  cases fs with
  | named fs tr =>
    simp only [validateFieldNames, fieldNames_scan]
    exact nameItems_panic (by simp [nameItem])
  | unnamed fs tr => simp [validateFieldNames]
  | unit => simp [validateFieldNames]

theorem validateEnumNames_err {en : Enum} {e : DuplicateName} (h : validateEnumNames en = .err e) :
    (∃ n, e = .variant n ∧ Twice (en.variants.map (·.name)) n) ∨
    ∃ n, ∃ v ∈ en.variants, e = .field n ∧ Twice (fieldNamesOf v.fields) n := by
  rw [validateEnumNames, variantNames_scan] at h
  rcases nameItems_err (by simp [nameItem]) h with ⟨x, hx, hh⟩ | ⟨n, he, ht⟩
  · have ⟨v, hv, hf⟩ := List.mem_map.1 hx
    subst hf
    have ⟨n, hn, ht⟩ := validateFieldNames_err hh
    exact .inr ⟨n, v, hv, hn, ht⟩
  · refine .inl ⟨n, he, ?_⟩
    rw [List.map_map] at ht; exact ht

theorem validateEnumNames_panic {en : Enum} : validateEnumNames en ≠ .panic := by
  rw [validateEnumNames, variantNames_scan]
  exact nameItems_panic (by simp [nameItem, validateFieldNames_panic])

theorem validateNamesInModule_err {ds : List Definition} {e : DuplicateName} (h : validateNamesInModule ds = .err e) :
    ∃ n, e = .inModule n ∧ Twice (ds.flatMap introduced) n := by
  rw [validateNamesInModule, moduleNames_scan] at h
  rcases nameItems_err (by intro x hx; obtain ⟨n, _, rfl⟩ := List.mem_map.1 hx; rfl) h with ⟨x, hx, hh⟩ | ⟨n, he, ht⟩
  · have ⟨f, _, hf⟩ := List.mem_map.1 hx
    subst hf; cases hh
  · refine ⟨n, he, ?_⟩
    rw [List.map_map] at ht
    simpa [Function.comp_def, nameItem] using ht

theorem validateNamesInModule_panic {ds : List Definition} : validateNamesInModule ds ≠ .panic := by
  rw [validateNamesInModule, moduleNames_scan]
  exact nameItems_panic (by intro x hx; obtain ⟨n, _, rfl⟩ := List.mem_map.1 hx; exact ⟨rfl, by simp [nameItem]⟩)

/-! ### Generics -/

theorem duplicateGenerics_scan : ∀ (gs : List String) (vis : List (String × Unit)),
    duplicateGenerics vis gs = scan (fun n _ _ => .duplicate n) vis (gs.map fun n => nameItem n .ok)
  | [], _ => rfl
  | f :: fs, vis => by
    simp only [duplicateGenerics, List.map_cons, scan, nameItem, andThen_ok_left]
    cases visit f () vis with
    | inl o => rfl
    | inr v => exact duplicateGenerics_scan fs v

theorem duplicateGenerics_ok {gs : List String} : duplicateGenerics [] gs = .ok ↔ gs.Nodup := by
  rw [duplicateGenerics_scan, nameItems_ok]

theorem duplicateGenerics_err {gs : List String} {e : InvalidGeneric} (h : duplicateGenerics [] gs = .err e) :
    ∃ n, e = .duplicate n ∧ Twice gs n := by
  rw [duplicateGenerics_scan] at h
  rcases nameItems_err (by simp [nameItem]) h with ⟨x, hx, hh⟩ | ⟨n, he, ht⟩
  · have ⟨f, _, hf⟩ := List.mem_map.1 hx
    subst hf; cases hh
  · refine ⟨n, he, ?_⟩
    rw [List.map_map] at ht
    simpa [Function.comp_def, nameItem] using ht

theorem duplicateGenerics_panic {gs : List String} : duplicateGenerics [] gs ≠ .panic := by
  rw [duplicateGenerics_scan]
  exact nameItems_panic (by simp [nameItem])

mutual
theorem visitExternals_part : ∀ (t : DataType) (p : List String) (n : String) (g : List DataType),
    (p, n, g) ∈ visitExternals t ↔ ∃ tr, Part (.external p n g tr) t
  | .prim _, p, n, g => by
    simp only [visitExternals, List.not_mem_nil, false_iff, not_exists]; intro tr h; cases h
  | .nonZero _, p, n, g => by
    simp only [visitExternals, List.not_mem_nil, false_iff, not_exists]; intro tr h; cases h
  | .vec t, p, n, g => by
    rw [visitExternals, visitExternals_part t]
    exact ⟨fun ⟨tr, h⟩ => ⟨tr, .vec h⟩, fun ⟨tr, h⟩ => by cases h; exact ⟨tr, by assumption⟩⟩
  | .hashSet t, p, n, g => by
    rw [visitExternals, visitExternals_part t]
    exact ⟨fun ⟨tr, h⟩ => ⟨tr, .hashSet h⟩, fun ⟨tr, h⟩ => by cases h; exact ⟨tr, by assumption⟩⟩
  | .option t, p, n, g => by
    rw [visitExternals, visitExternals_part t]
    exact ⟨fun ⟨tr, h⟩ => ⟨tr, .option h⟩, fun ⟨tr, h⟩ => by cases h; exact ⟨tr, by assumption⟩⟩
  | .array t _, p, n, g => by
    rw [visitExternals, visitExternals_part t]
    exact ⟨fun ⟨tr, h⟩ => ⟨tr, .array h⟩, fun ⟨tr, h⟩ => by cases h; exact ⟨tr, by assumption⟩⟩
  | .hashMap k v, p, n, g => by
    rw [visitExternals, List.mem_append, visitExternals_part k, visitExternals_part v]
    constructor
    · rintro (⟨tr, h⟩ | ⟨tr, h⟩)
      · exact ⟨tr, .hashMapKey h⟩
      · exact ⟨tr, .hashMapValue h⟩
    · rintro ⟨tr, h⟩
      cases h with
      | hashMapKey h => exact .inl ⟨tr, h⟩
      | hashMapValue h => exact .inr ⟨tr, h⟩
  | .tuple ts _, p, n, g => by
    rw [visitExternals, visitExternalsList_part ts]
    constructor
    · rintro ⟨t, ht, tr, h⟩; exact ⟨tr, .tuple ht h⟩
    · rintro ⟨tr, h⟩; cases h with | tuple ht h => exact ⟨_, ht, tr, h⟩
  | .external p' n' g' tr', p, n, g => by
    rw [visitExternals, List.mem_cons, visitExternalsList_part g']
    constructor
    · rintro (h | ⟨t, ht, tr, h⟩)
      · simp only [Prod.mk.injEq] at h
        obtain ⟨rfl, rfl, rfl⟩ := h
        exact ⟨tr', .here⟩
      · exact ⟨tr, .argument ht h⟩
    · rintro ⟨tr, h⟩
      cases h with
      | here => exact .inl rfl
      | argument ht h => exact .inr ⟨_, ht, tr, h⟩
theorem visitExternalsList_part : ∀ (ts : List DataType) (p : List String) (n : String) (g : List DataType),
    (p, n, g) ∈ visitExternalsList ts ↔ ∃ t ∈ ts, ∃ tr, Part (.external p n g tr) t
  | [], p, n, g => by simp [visitExternalsList]
  | t :: ts, p, n, g => by
    rw [visitExternalsList, List.mem_append, visitExternals_part t, visitExternalsList_part ts]
    simp
end

theorem markUsed_mem {u : List String} {e : List String × String × List DataType} {g : String} :
    g ∈ markUsed u e ↔ g ∈ u ∧ e ≠ ([], g, []) := by
  obtain ⟨p, n, a⟩ := e
  unfold markUsed
  cases p with
  | nil =>
    cases a with
    | nil =>
      simp only [List.isEmpty_nil, and_self, if_true, List.mem_filter, bne_iff_ne, ne_eq, Prod.mk.injEq, and_true,
        true_and, and_congr_right_iff]
      intro _; exact ⟨fun h h' => h h'.symm, fun h h' => h h'.symm⟩
    | cons => simp
  | cons => simp

theorem foldl_markUsed {l : List (List String × String × List DataType)} {g : String} : ∀ {u : List String},
    g ∈ l.foldl markUsed u ↔ g ∈ u ∧ ([], g, []) ∉ l := by
  induction l with
  | nil => simp
  | cons e l ih =>
    intro u
    rw [List.foldl_cons, ih, markUsed_mem, List.mem_cons, not_or]
    constructor
    · rintro ⟨⟨h1, h2⟩, h3⟩; exact ⟨h1, fun h => h2 h.symm, h3⟩
    · rintro ⟨h1, h2, h3⟩; exact ⟨⟨h1, fun h => h2 h.symm⟩, h3⟩

theorem foldl_types {ts : List DataType} {g : String} : ∀ {u : List String},
    g ∈ ts.foldl (fun u t => (visitExternals t).foldl markUsed u) u ↔
      g ∈ u ∧ ∀ t ∈ ts, ([], g, []) ∉ visitExternals t := by
  induction ts with
  | nil => simp
  | cons t ts ih =>
    intro u
    rw [List.foldl_cons, ih, foldl_markUsed]
    simp [and_assoc]

theorem fieldTypes_mem {fs : Fields} {t : DataType} : t ∈ fieldTypes fs ↔ TypeOf fs t := by
  cases fs with
  | named fs tr =>
    simp only [fieldTypes, List.mem_map]
    constructor
    · rintro ⟨f, hf, rfl⟩; exact .named f hf
    · intro h; cases h with | named f hf => exact ⟨f, hf, rfl⟩
  | unnamed fs tr =>
    simp only [fieldTypes, List.mem_map]
    constructor
    · rintro ⟨f, hf, rfl⟩; exact .unnamed f hf
    · intro h; cases h with | unnamed f hf => exact ⟨f, hf, rfl⟩
  | unit => simp only [fieldTypes, List.not_mem_nil, false_iff]; intro h; cases h

/-- The plain name `g` is mentioned in the field list. -/
def Mentions (fs : Fields) (g : String) : Prop := ∃ t tr, TypeOf fs t ∧ Part (.external [] g [] tr) t

theorem fieldGenerics_mem {fs : Fields} {u : List String} {g : String} :
    g ∈ fieldGenerics fs u ↔ g ∈ u ∧ ¬ Mentions fs g := by
  rw [fieldGenerics, foldl_types]
  simp only [fieldTypes_mem, visitExternals_part, Mentions]
  constructor
  · rintro ⟨h1, h2⟩; exact ⟨h1, fun ⟨t, tr, ht, hp⟩ => h2 t ht ⟨tr, hp⟩⟩
  · rintro ⟨h1, h2⟩; exact ⟨h1, fun t ht ⟨tr, hp⟩ => h2 ⟨t, tr, ht, hp⟩⟩

theorem foldl_variants {vs : List Variant} {g : String} : ∀ {u : List String},
    g ∈ vs.foldl (fun u v => fieldGenerics v.fields u) u ↔ g ∈ u ∧ ∀ v ∈ vs, ¬ Mentions v.fields g := by
  induction vs with
  | nil => simp
  | cons v vs ih =>
    intro u
    rw [List.foldl_cons, ih, fieldGenerics_mem]
    simp [and_assoc]

theorem used_struct {s : Struct} {g : String} : Used (.struct s) g ↔ Mentions s.fields g := by
  constructor
  · rintro ⟨fs, t, tr, hf, ht, hp⟩; cases hf; exact ⟨t, tr, ht, hp⟩
  · rintro ⟨t, tr, ht, hp⟩; exact ⟨_, t, tr, .struct s, ht, hp⟩

theorem used_enum {e : Enum} {g : String} : Used (.enum e) g ↔ ∃ v ∈ e.variants, Mentions v.fields g := by
  constructor
  · rintro ⟨fs, t, tr, hf, ht, hp⟩; cases hf with | variant _ v hv => exact ⟨v, hv, t, tr, ht, hp⟩
  · rintro ⟨v, hv, t, tr, ht, hp⟩; exact ⟨_, t, tr, .variant e v hv, ht, hp⟩

theorem unusedError_ok {u : List String} : unusedError u = .ok ↔ ∀ g, g ∉ u := by
  cases u with
  | nil => simp [unusedError]
  | cons a l =>
    simp only [unusedError, reduceCtorEq, false_iff]
    intro h; exact h a (by simp)

theorem unusedError_err {u : List String} {e : InvalidGeneric} (h : unusedError u = .err e) :
    ∃ g ∈ u, e = .unused g := by
  cases u with
  | nil => cases h
  | cons a l => simp only [unusedError, Outcome.err.injEq] at h; exact ⟨a, by simp, h.symm⟩

theorem unusedError_panic {u : List String} : unusedError u ≠ .panic := by
  cases u <;> simp [unusedError]

theorem genericsCheck {gs u : List String} {used : String → Prop}
    (hu : ∀ g, g ∈ u ↔ g ∈ gs ∧ ¬ used g) :
    (if gs.isEmpty then Outcome.ok else (duplicateGenerics [] gs).andThen (unusedError u)) = .ok ↔
      gs.Nodup ∧ ∀ g ∈ gs, used g := by
  cases gs with
  | nil => simp
  | cons a l =>
    simp only [List.isEmpty_cons, Bool.false_eq_true, if_false, andThen_ok, duplicateGenerics_ok, unusedError_ok]
    refine and_congr_right fun _ => ?_
    constructor
    · intro h g hg
      exact Classical.byContradiction fun hn => h g ((hu g).2 ⟨hg, hn⟩)
    · intro h g hg
      exact ((hu g).1 hg).2 (h g ((hu g).1 hg).1)

theorem genericsCheck_err {gs u : List String} {used : String → Prop} {e : InvalidGeneric}
    (hu : ∀ g, g ∈ u ↔ g ∈ gs ∧ ¬ used g)
    (h : (if gs.isEmpty then Outcome.ok else (duplicateGenerics [] gs).andThen (unusedError u)) = .err e) :
    (∃ n, e = .duplicate n ∧ Twice gs n) ∨ ∃ n ∈ gs, e = .unused n ∧ ¬ used n := by
  cases gs with
  | nil => cases h
  | cons a l =>
    simp only [List.isEmpty_cons, Bool.false_eq_true, if_false] at h
    rcases andThen_fail h (by simp) with h | ⟨_, h⟩
    · exact .inl (duplicateGenerics_err h)
    · have ⟨g, hg, he⟩ := unusedError_err h
      have := (hu g).1 hg
      exact .inr ⟨g, this.1, he, this.2⟩

theorem genericsCheck_panic {gs u : List String} :
    (if gs.isEmpty then Outcome.ok else (duplicateGenerics [] gs).andThen (unusedError u)) ≠ .panic := by
  intro h
  split at h
  · cases h
  · rcases andThen_fail h (by simp) with h | ⟨_, h⟩
    · exact duplicateGenerics_panic h
    · exact unusedError_panic h

theorem structGenerics_mem (s : Struct) (g : String) :
    g ∈ fieldGenerics s.fields s.generics ↔ g ∈ s.generics ∧ ¬ Used (.struct s) g := by
  rw [fieldGenerics_mem, used_struct]

theorem enumGenerics_mem (e : Enum) (g : String) :
    g ∈ e.variants.foldl (fun u v => fieldGenerics v.fields u) e.generics ↔ g ∈ e.generics ∧ ¬ Used (.enum e) g := by
  rw [foldl_variants, used_enum]; simp

/-! ### Tuples -/

theorem tupleAmount_ok {n : Nat} : tupleAmount n = .ok ↔ 2 ≤ n ∧ n ≤ 12 := by
  unfold tupleAmount
  split
  · simp; omega
  · split
    · simp; omega
    · split
      · simp; omega
      · simp; omega

theorem tupleAmount_panic {n : Nat} : tupleAmount n ≠ .panic := by
  unfold tupleAmount; split <;> (try split) <;> (try split) <;> simp

mutual
theorem tupleSizes_ok : ∀ t : DataType, tupleSizes t = .ok ↔ TupleOk t
  | .prim _ => by
    simp only [tupleSizes, true_iff]; intro ts tr h; cases h
  | .nonZero _ => by
    simp only [tupleSizes, true_iff]; intro ts tr h; cases h
  | .vec t => by
    rw [tupleSizes, tupleSizes_ok t]
    exact ⟨fun h ts tr hp => by cases hp; exact h ts tr (by assumption), fun h ts tr hp => h ts tr (.vec hp)⟩
  | .hashSet t => by
    rw [tupleSizes, tupleSizes_ok t]
    exact ⟨fun h ts tr hp => by cases hp; exact h ts tr (by assumption), fun h ts tr hp => h ts tr (.hashSet hp)⟩
  | .option t => by
    rw [tupleSizes, tupleSizes_ok t]
    exact ⟨fun h ts tr hp => by cases hp; exact h ts tr (by assumption), fun h ts tr hp => h ts tr (.option hp)⟩
  | .array t _ => by
    rw [tupleSizes, tupleSizes_ok t]
    exact ⟨fun h ts tr hp => by cases hp; exact h ts tr (by assumption), fun h ts tr hp => h ts tr (.array hp)⟩
  | .hashMap k v => by
    rw [tupleSizes, andThen_ok, tupleSizes_ok k, tupleSizes_ok v]
    constructor
    · rintro ⟨h1, h2⟩ ts tr hp
      cases hp with
      | hashMapKey hp => exact h1 ts tr hp
      | hashMapValue hp => exact h2 ts tr hp
    · intro h
      exact ⟨fun ts tr hp => h ts tr (.hashMapKey hp), fun ts tr hp => h ts tr (.hashMapValue hp)⟩
  | .tuple us tr' => by
    rw [tupleSizes, andThen_ok, tupleAmount_ok, tupleSizesList_ok us]
    constructor
    · rintro ⟨h1, h2⟩ ts tr hp
      cases hp with
      | here => exact h1
      | tuple ht hp => exact h2 _ ht ts tr hp
    · intro h
      exact ⟨h us tr' .here, fun t ht ts tr hp => h ts tr (.tuple ht hp)⟩
  | .external p n g tr' => by
    rw [tupleSizes, tupleSizesList_ok g]
    constructor
    · intro h ts tr hp
      cases hp with
      | argument ht hp => exact h _ ht ts tr hp
    · intro h t ht ts tr hp
      exact h ts tr (.argument ht hp)
theorem tupleSizesList_ok : ∀ ts : List DataType, tupleSizesList ts = .ok ↔ ∀ t ∈ ts, TupleOk t
  | [] => by simp [tupleSizesList]
  | t :: ts => by rw [tupleSizesList, andThen_ok, tupleSizes_ok t, tupleSizesList_ok ts]; simp
end

/-- What is wrong with a tuple of `n` elements. -/
def tupleProblem (n : Nat) : Option TupleSize :=
  if n = 0 then some .empty else if n = 1 then some .single else if 12 < n then some .tooLarge else none

theorem tupleAmount_err {n : Nat} {e : TupleSize} (h : tupleAmount n = .err e) : tupleProblem n = some e := by
  unfold tupleAmount at h
  split at h
  · cases h; simp_all [tupleProblem]
  · split at h
    · cases h; simp_all [tupleProblem]
    · split at h
      · cases h
      · cases h; simp only [tupleProblem]; rw [if_neg (by omega), if_neg (by omega), if_pos (by omega)]

mutual
theorem tupleSizes_err : ∀ (t : DataType) (e : TupleSize), tupleSizes t = .err e →
    ∃ ts tr, Part (.tuple ts tr) t ∧ tupleProblem ts.length = some e
  | .prim _, _, h => by cases h
  | .nonZero _, _, h => by cases h
  | .vec t, e, h => have ⟨ts, tr, hp, he⟩ := tupleSizes_err t e h; ⟨ts, tr, .vec hp, he⟩
  | .hashSet t, e, h => have ⟨ts, tr, hp, he⟩ := tupleSizes_err t e h; ⟨ts, tr, .hashSet hp, he⟩
  | .option t, e, h => have ⟨ts, tr, hp, he⟩ := tupleSizes_err t e h; ⟨ts, tr, .option hp, he⟩
  | .array t _, e, h => have ⟨ts, tr, hp, he⟩ := tupleSizes_err t e h; ⟨ts, tr, .array hp, he⟩
  | .hashMap k v, e, h => by
    rcases andThen_fail h (by simp) with h | ⟨_, h⟩
    · have ⟨ts, tr, hp, he⟩ := tupleSizes_err k e h; exact ⟨ts, tr, .hashMapKey hp, he⟩
    · have ⟨ts, tr, hp, he⟩ := tupleSizes_err v e h; exact ⟨ts, tr, .hashMapValue hp, he⟩
  | .tuple us tr', e, h => by
    rcases andThen_fail h (by simp) with h | ⟨_, h⟩
    · exact ⟨us, tr', .here, tupleAmount_err h⟩
    · have ⟨t, ht, ts, tr, hp, he⟩ := tupleSizesList_err us e h; exact ⟨ts, tr, .tuple ht hp, he⟩
  | .external p n g tr', e, h => by
    have ⟨t, ht, ts, tr, hp, he⟩ := tupleSizesList_err g e h; exact ⟨ts, tr, .argument ht hp, he⟩
theorem tupleSizesList_err : ∀ (us : List DataType) (e : TupleSize), tupleSizesList us = .err e →
    ∃ t ∈ us, ∃ ts tr, Part (.tuple ts tr) t ∧ tupleProblem ts.length = some e
  | [], _, h => by cases h
  | t :: us, e, h => by
    rcases andThen_fail h (by simp) with h | ⟨_, h⟩
    · exact ⟨t, by simp, tupleSizes_err t e h⟩
    · have ⟨u, hu, hh⟩ := tupleSizesList_err us e h; exact ⟨u, by simp [hu], hh⟩
end

mutual
theorem tupleSizes_panic : ∀ (t : DataType), tupleSizes t ≠ .panic
  | .prim _, h => by cases h
  | .nonZero _, h => by cases h
  | .vec t, h => tupleSizes_panic t h
  | .hashSet t, h => tupleSizes_panic t h
  | .option t, h => tupleSizes_panic t h
  | .array t _, h => tupleSizes_panic t h
  | .hashMap k v, h => by
    rcases andThen_fail h (by simp) with h | ⟨_, h⟩
    · exact tupleSizes_panic k h
    · exact tupleSizes_panic v h
  | .tuple us tr', h => by
    rcases andThen_fail h (by simp) with h | ⟨_, h⟩
    · exact tupleAmount_panic h
    · exact tupleSizesList_panic us h
  | .external p n g tr', h => tupleSizesList_panic g h
theorem tupleSizesList_panic : ∀ (us : List DataType), tupleSizesList us ≠ .panic
  | [], h => by cases h
  | t :: us, h => by
    rcases andThen_fail h (by simp) with h | ⟨_, h⟩
    · exact tupleSizes_panic t h
    · exact tupleSizesList_panic us h
end

theorem validateFieldTuples_ok {fs : Fields} : validateFieldTuples fs = .ok ↔ ∀ t, TypeOf fs t → TupleOk t := by
  rw [validateFieldTuples, tryForEach_ok]; simp [tupleSizes_ok, fieldTypes_mem]

theorem validateFieldTuples_err {fs : Fields} {e : TupleSize} (h : validateFieldTuples fs = .err e) :
    ∃ t ts tr, TypeOf fs t ∧ Part (.tuple ts tr) t ∧ tupleProblem ts.length = some e := by
  have ⟨t, ht, h⟩ := tryForEach_fail (by simp) h
  have ⟨ts, tr, hp, he⟩ := tupleSizes_err t e h
  exact ⟨t, ts, tr, fieldTypes_mem.1 ht, hp, he⟩

theorem validateFieldTuples_panic {fs : Fields} : validateFieldTuples fs ≠ .panic := by
  intro h
  have ⟨t, ht, h⟩ := tryForEach_fail (by simp) h
  exact tupleSizes_panic t h

end Mabo.Compiler
