import Verif.Build.Crate
import Verif.Compiler.ResolveLemmas
import Verif.Props.Resolve
/-! Lemmas about the build: what the generated files contain, and what paths in them mean. -/
namespace Mabo.Build
open Mabo.Spec Mabo.Simplify

/-- No name is introduced twice in any scope below the definitions. -/
def UniqueNames (ds : List Ast.Definition) : Prop :=
  ∀ p out, ScopeAt ds p out → (out.flatMap introduced).Nodup

theorem UniqueNames.here {ds : List Ast.Definition} (h : UniqueNames ds) : (ds.flatMap introduced).Nodup := h [] _ (.here _)

theorem UniqueNames.inner {ds ds' : List Ast.Definition} {c : List String} {n : String} (h : UniqueNames ds)
    (hm : Ast.Definition.module c n ds' ∈ ds) : UniqueNames ds' := fun p out hp => h (n :: p) out (.enter hm hp)

theorem UniqueNames.at {ds out : List Ast.Definition} {p : List String} (h : UniqueNames ds) (hs : ScopeAt ds p out) :
    UniqueNames out := by
  induction hs with
  | here => exact h
  | enter hm _ ih => exact ih (h.inner hm)

theorem uniqueNames_of_names {s : Ast.Schema} (h : NamesOk s) : UniqueNames s.definitions :=
  fun p _ hp => h.scopes _ (Resolve.scope_scopeAt.2 ⟨p, hp⟩)

theorem nodup_head {d : Ast.Definition} {ds : List Ast.Definition} (h : ((d :: ds).flatMap introduced).Nodup) {n : String}
    (hn : n ∈ introduced d) : ∀ d' ∈ ds, n ∉ introduced d' := by
  intro d' hd hn'
  rw [List.flatMap_cons, List.nodup_append] at h
  exact h.2.2 n hn n (List.mem_flatMap.2 ⟨d', hd, hn'⟩) rfl

theorem nodup_tail {d : Ast.Definition} {ds : List Ast.Definition} (h : ((d :: ds).flatMap introduced).Nodup) :
    (ds.flatMap introduced).Nodup := by
  rw [List.flatMap_cons, List.nodup_append] at h
  exact h.2.1

theorem childModule_back : ∀ {ds : List Ast.Definition} {es : List Definition} {m : String} {es' : List Definition},
    SameDefs ds es → childModule es m = some es' → ∃ c ds', Ast.Definition.module c m ds' ∈ ds ∧ SameDefs ds' es'
  | _, _, _, _, .nil, h => by simp [childModule] at h
  | d :: ds, e :: es, m, es', .cons hd hs, h => by
    have next : childModule es m = some es' →
        ∃ c ds', Ast.Definition.module c m ds' ∈ d :: ds ∧ SameDefs ds' es' := fun h => by
      obtain ⟨c, ds', h1, h2⟩ := childModule_back hs h
      exact ⟨c, ds', List.mem_cons_of_mem _ h1, h2⟩
    cases hd with
    | module hi =>
      rename_i c n ds' es''
      simp only [childModule] at h
      by_cases hn : n = m
      · rw [if_pos hn] at h
        cases h; subst hn
        exact ⟨c, ds', List.mem_cons_self .., hi⟩
      · rw [if_neg hn] at h; exact next h
    | struct _ => exact next h
    | enum _ _ _ _ => exact next h
    | typeAlias _ => exact next h
    | const _ => exact next h
    | «import» _ => exact next h

theorem childModule_fwd : ∀ {ds : List Ast.Definition} {es : List Definition} {m : String} {c : List String}
    {ds' : List Ast.Definition}, SameDefs ds es → (ds.flatMap introduced).Nodup → Ast.Definition.module c m ds' ∈ ds →
    ∃ es', childModule es m = some es' ∧ SameDefs ds' es'
  | _, _, _, _, _, .nil, _, h => by simp at h
  | d :: ds, e :: es, m, c, ds', .cons hd hs, hu, h => by
    rcases List.mem_cons.1 h with h | hin'
    · subst h
      cases hd with
      | module hi => exact ⟨_, by simp [childModule], hi⟩
    · obtain ⟨es', h1, h2⟩ := childModule_fwd hs (nodup_tail hu) hin'
      refine ⟨es', ?_, h2⟩
      cases hd with
      | module hi =>
        rename_i c' n ds'' es''
        have : n ≠ m := fun hn => nodup_head hu (n := m) (by simp [introduced, hn]) _ hin' (by simp [introduced])
        simp [childModule, this, h1]
      | struct _ => exact h1
      | enum _ _ _ _ => exact h1
      | typeAlias _ => exact h1
      | const _ => exact h1
      | «import» _ => exact h1

theorem enter_back {p : List String} : ∀ {ds : List Ast.Definition} {es es' : List Definition},
    SameDefs ds es → enter es p = some es' → ∃ ds', ScopeAt ds p ds' ∧ SameDefs ds' es' := by
  induction p with
  | nil => intro ds es es' hs h; simp only [enter, Option.some.injEq] at h; subst h; exact ⟨ds, .here _, hs⟩
  | cons m ms ih =>
    intro ds es es' hs h
    simp only [enter] at h
    cases hc : childModule es m with
    | none => rw [hc] at h; cases h
    | some es1 =>
      rw [hc] at h
      obtain ⟨c, ds1, h1, h2⟩ := childModule_back hs hc
      obtain ⟨ds', h3, h4⟩ := ih h2 h
      exact ⟨ds', .enter h1 h3, h4⟩

theorem enter_fwd {p : List String} {ds ds' : List Ast.Definition} (hp : ScopeAt ds p ds') :
    ∀ {es : List Definition}, SameDefs ds es → UniqueNames ds → ∃ es', enter es p = some es' ∧ SameDefs ds' es' := by
  induction hp with
  | here => intro es hs _; exact ⟨es, rfl, hs⟩
  | enter hm _ ih =>
    intro es hs hu
    obtain ⟨es1, h1, h2⟩ := childModule_fwd hs hu.here hm
    obtain ⟨es', h3, h4⟩ := ih h2 (hu.inner hm)
    exact ⟨es', by simp only [enter, h1, h3], h4⟩

/-- The type generated for a definition. -/
inductive SameItem : Ast.Definition → Item → Prop where
  | struct {s : Ast.Struct} {t : Struct} : SameDef (.struct s) (.struct t) → SameItem (.struct s) (.struct t)
  | enum {e : Ast.Enum} {f : Enum} : SameDef (.enum e) (.enum f) → SameItem (.enum e) (.enum f)

/-- The name of a type. -/
def defName : Ast.Definition → String
  | .struct s => s.name
  | .enum e => e.name
  | _ => ""

theorem SameItem.generics {d : Ast.Definition} {i : Item} (h : SameItem d i) : i.generics = typeParams d := by
  cases h with
  | struct h => cases h; rfl
  | enum h => cases h; rfl

theorem SameItem.introduced {d : Ast.Definition} {i : Item} (h : SameItem d i) : introduced d = [defName d] := by
  cases h <;> rfl

theorem findItem_back : ∀ {ds : List Ast.Definition} {es : List Definition} {n : String} {i : Item},
    SameDefs ds es → findItem es n = some i → ∃ d ∈ ds, defName d = n ∧ SameItem d i
  | _, _, _, _, .nil, h => by simp [findItem] at h
  | d :: ds, e :: es, n, i, .cons hd hs, h => by
    have next : findItem es n = some i → ∃ d' ∈ d :: ds, defName d' = n ∧ SameItem d' i := fun h => by
      obtain ⟨d', h1, h2⟩ := findItem_back hs h
      exact ⟨d', List.mem_cons_of_mem _ h1, h2⟩
    have hd' := hd
    cases hd with
    | module hi => exact next h
    | struct hf =>
      rename_i s fs
      simp only [findItem] at h
      by_cases hn : s.name = n
      · rw [if_pos hn] at h
        cases h
        exact ⟨_, List.mem_cons_self .., hn, .struct hd'⟩
      · rw [if_neg hn] at h; exact next h
    | enum _ _ _ _ =>
      rename_i s vs _ _ _ _
      simp only [findItem] at h
      by_cases hn : s.name = n
      · rw [if_pos hn] at h
        cases h
        exact ⟨_, List.mem_cons_self .., hn, .enum hd'⟩
      · rw [if_neg hn] at h; exact next h
    | typeAlias _ => exact next h
    | const _ => exact next h
    | «import» _ => exact next h

/-- A definition of a type. -/
inductive IsType : Ast.Definition → Prop where
  | struct (s : Ast.Struct) : IsType (.struct s)
  | enum (e : Ast.Enum) : IsType (.enum e)

theorem findItem_fwd : ∀ {ds : List Ast.Definition} {es : List Definition} {d : Ast.Definition},
    SameDefs ds es → (ds.flatMap introduced).Nodup → d ∈ ds → IsType d →
    ∃ i, findItem es (defName d) = some i ∧ SameItem d i
  | _, _, _, .nil, _, h, _ => by simp at h
  | d' :: ds, e :: es, d, .cons hd hs, hu, h, ht => by
    rcases List.mem_cons.1 h with h | hin'
    · subst h
      have hd' := hd
      cases hd with
      | struct hf => exact ⟨_, by simp [findItem, defName], .struct hd'⟩
      | enum _ _ _ _ => exact ⟨_, by simp [findItem, defName], .enum hd'⟩
      | module _ => cases ht
      | typeAlias _ => cases ht
      | const _ => cases ht
      | «import» _ => cases ht
    · obtain ⟨i, h1, h2⟩ := findItem_fwd hs (nodup_tail hu) hin' ht
      refine ⟨i, ?_, h2⟩
      have hin : defName d ∈ introduced d := by rw [h2.introduced]; simp
      cases hd with
      | struct hf =>
        rename_i s fs
        have : s.name ≠ defName d := fun hn => nodup_head hu (n := s.name) (by simp [introduced]) _ hin' (hn ▸ hin)
        simp [findItem, this, h1]
      | enum _ _ _ _ =>
        rename_i s vs _ _ _ _
        have : s.name ≠ defName d := fun hn => nodup_head hu (n := s.name) (by simp [introduced]) _ hin' (hn ▸ hin)
        simp [findItem, this, h1]
      | module _ => exact h1
      | typeAlias _ => exact h1
      | const _ => exact h1
      | «import» _ => exact h1

theorem findItem_none {ds : List Ast.Definition} {es : List Definition} {n : String} (hs : SameDefs ds es)
    (hu : (ds.flatMap introduced).Nodup) {i : Ast.Import} (hi : Ast.Definition.import i ∈ ds)
    (hn : n ∈ introduced (.import i)) : findItem es n = none := by
  cases h : findItem es n with
  | none => rfl
  | some it =>
    exfalso
    obtain ⟨d, hd, hdn, hsi⟩ := findItem_back hs h
    have hne : d ≠ .import i := by intro h; subst h; cases hsi
    obtain ⟨k, hk, hk'⟩ := List.mem_iff_getElem.1 hd
    obtain ⟨l, hl, hl'⟩ := List.mem_iff_getElem.1 hi
    have hkl : k ≠ l := by intro h; subst h; exact hne (hk' ▸ hl' ▸ rfl)
    have hu := List.pairwise_flatMap.1 hu
    have hp := List.pairwise_iff_getElem.1 hu.2
    have hin : n ∈ introduced d := by rw [hsi.introduced, hdn]; simp
    rcases Nat.lt_or_gt_of_ne hkl with h | h
    · exact hp k l hk hl h n (by rw [hk']; exact hin) n (by rw [hl']; exact hn) rfl
    · exact hp l k hl hk h n (by rw [hl']; exact hn) n (by rw [hk']; exact hin) rfl

theorem getLast_introduced {l : List String} {n : String} (h : l.getLast? = some n) :
    n ∈ introduced (.import ⟨l, none⟩) := by
  show n ∈ l.drop (l.length - 1)
  obtain ⟨l', rfl⟩ := List.getLast?_eq_some_iff.1 h
  simp

theorem importOf_fwd : ∀ {ds : List Ast.Definition} {es : List Definition} {segs : List String} {n : String},
    SameDefs ds es → (ds.flatMap introduced).Nodup → Ast.Definition.import ⟨segs, some n⟩ ∈ ds →
    importOf es n = some (segs ++ [n])
  | _, _, _, _, .nil, _, h => by simp at h
  | d :: ds, e :: es, segs, n, .cons hd hs, hu, h => by
    rcases List.mem_cons.1 h with h | hin
    · subst h
      cases hd
      simp [importOf]
    · have ih := importOf_fwd hs (nodup_tail hu) hin
      cases hd with
      | «import» i =>
        obtain ⟨segs', el⟩ := i
        have hno : n ∉ introduced (.import ⟨segs', el⟩) := fun hn => nodup_head hu hn _ hin (by simp [introduced])
        cases el with
        | some e' =>
          have : e' ≠ n := fun h => hno (by simp [introduced, h])
          simp [importOf, this, ih]
        | none =>
          have : segs'.getLast? ≠ some n := fun h => hno (getLast_introduced h)
          simp [importOf, this, ih]
      | module _ => exact ih
      | struct _ => exact ih
      | enum _ _ _ _ => exact ih
      | typeAlias _ => exact ih
      | const _ => exact ih

/-! ### The generated crate -/

/-- The files are the simplifications of the schemas, by the same names. -/
structure Generated (values : List (String × Ast.Schema)) (files : Files) : Prop where
  names : ∀ stem s, (stem, s) ∈ values → ∃ t, files.find? (fun f => decide (f.1 = stem)) = some (stem, t) ∧ SameSchema s t
  only : ∀ stem t, (stem, t) ∈ files → ∃ s, (stem, s) ∈ values ∧ SameSchema s t

theorem scopeOf_fwd {values : List (String × Ast.Schema)} {files : Files} (hg : Generated values files) {stem : String}
    {s : Ast.Schema} (hs : (stem, s) ∈ values) (hu : UniqueNames s.definitions) {mods : List String}
    {scope : List Ast.Definition} (hp : ScopeAt s.definitions mods scope) :
    ∃ es, scopeOf files (stem :: mods) = some es ∧ SameDefs scope es := by
  obtain ⟨t, h1, h2⟩ := hg.names stem s hs
  obtain ⟨es, h3, h4⟩ := enter_fwd hp h2.2 hu
  exact ⟨es, by simp only [scopeOf, h1, h3], h4⟩

theorem scopeOf_back {values : List (String × Ast.Schema)} {files : Files} (hg : Generated values files)
    {m : List String} {es : List Definition} (h : scopeOf files m = some es) :
    ∃ stem s mods scope, m = stem :: mods ∧ (stem, s) ∈ values ∧ ScopeAt s.definitions mods scope ∧ SameDefs scope es := by
  cases m with
  | nil => simp [scopeOf] at h
  | cons stem mods =>
    simp only [scopeOf] at h
    cases hf : files.find? (fun f => decide (f.1 = stem)) with
    | none => rw [hf] at h; cases h
    | some f =>
      rw [hf] at h
      obtain ⟨stem', t⟩ := f
      have h1 : stem' = stem := by simpa using List.find?_some hf
      subst h1
      obtain ⟨s, h2, h3⟩ := hg.only _ _ (List.mem_of_find?_eq_some hf)
      obtain ⟨scope, h4, h5⟩ := enter_back h3.2 h
      exact ⟨_, s, mods, scope, rfl, h2, h4, h5⟩

theorem itemAt_append (files : Files) (m : List String) (n : String) :
    itemAt files (m ++ [n]) = match scopeOf files m with
      | some scope => findItem scope n
      | none => none := by
  simp only [itemAt, List.dropLast_concat, List.getLast?_concat]
  cases scopeOf files m <;> rfl

theorem itemAt_fwd {values : List (String × Ast.Schema)} {files : Files} (hg : Generated values files) {stem : String}
    {s : Ast.Schema} (hs : (stem, s) ∈ values) (hu : UniqueNames s.definitions) {mods : List String}
    {scope : List Ast.Definition} (hp : ScopeAt s.definitions mods scope) {d : Ast.Definition} (hd : d ∈ scope)
    (ht : IsType d) : ∃ i, itemAt files (stem :: mods ++ [defName d]) = some i ∧ SameItem d i := by
  obtain ⟨es, h1, h2⟩ := scopeOf_fwd hg hs hu hp
  obtain ⟨i, h3, h4⟩ := findItem_fwd h2 (hu.at hp).here hd ht
  exact ⟨i, by rw [itemAt_append, h1]; exact h3, h4⟩

theorem itemAt_back {values : List (String × Ast.Schema)} {files : Files} (hg : Generated values files)
    {abs : List String} {i : Item} (h : itemAt files abs = some i) :
    ∃ stem s mods scope d, abs = stem :: mods ++ [defName d] ∧ (stem, s) ∈ values ∧ ScopeAt s.definitions mods scope ∧
      d ∈ scope ∧ SameItem d i := by
  rcases List.eq_nil_or_concat abs with rfl | ⟨m, n, rfl⟩
  · simp [itemAt] at h
  · rw [List.concat_eq_append, itemAt_append] at h
    cases hsc : scopeOf files m with
    | none => rw [hsc] at h; cases h
    | some es =>
      rw [hsc] at h
      obtain ⟨stem, s, mods, scope, rfl, h1, h2, h3⟩ := scopeOf_back hg hsc
      obtain ⟨d, hd, hn, hi⟩ := findItem_back h3 h
      exact ⟨stem, s, mods, scope, d, by simp [hn], h1, h2, hd, hi⟩

/-! ### Numbers -/

theorem sameFields_ids {fs : Ast.Fields} {gs : Simplify.Fields} (h : SameFields fs gs) :
    Assigned (givenIds fs) (gs.fields.map (·.id)) := by
  cases h with
  | named _ _ _ ha => exact ha
  | unnamed _ _ _ ha => exact ha
  | unit => exact ⟨rfl, by simp [givenIds], by simp [givenIds], by simp [givenIds]⟩

theorem sameFieldLists_mem : ∀ {fs : List Ast.Fields} {gs : List Simplify.Fields}, SameFieldLists fs gs →
    ∀ g ∈ gs, ∃ f ∈ fs, SameFields f g
  | _, _, .nil, g, hg => by simp at hg
  | _ :: _, _ :: _, .cons h hs, g, hg => by
    rcases List.mem_cons.1 hg with rfl | hg
    · exact ⟨_, List.mem_cons_self .., h⟩
    · obtain ⟨f, hf, h'⟩ := sameFieldLists_mem hs g hg
      exact ⟨f, List.mem_cons_of_mem _ hf, h'⟩

theorem lowerFields_ok (look : List String → String → Option (List String)) (generics : List String) {fs : Ast.Fields}
    {gs : Simplify.Fields} (h : SameFields fs gs) (hd : DistinctIds (givenIds fs)) (hw : Props.WireIds (givenIds fs)) :
    FieldsOk (lowerFields look generics gs).fields := by
  have ha := sameFields_ids h
  have hm : (lowerFields look generics gs).fields.map (·.id) = gs.fields.map (·.id) := by
    simp [lowerFields, Function.comp_def]
  refine ⟨by rw [hm]; exact hd _ ha, fun f hf => hw _ ha _ ?_⟩
  rw [← hm]
  exact List.mem_map_of_mem hf

theorem lowerItem_ok (look : List String → String → Option (List String)) {d : Ast.Definition} {i : Item}
    (h : SameItem d i) (hd : ∀ l, IdList d l → DistinctIds l) (hw : ∀ l, IdList d l → Props.WireIds l) :
    DefOk (lowerItem look i) := by
  cases h with
  | struct h =>
    cases h with
    | struct h => exact lowerFields_ok look _ h (hd _ (.fields (.struct _))) (hw _ (.fields (.struct _)))
  | enum h =>
    cases h with
    | enum _ _ ha hs =>
      rename_i e vs _ _
      refine ⟨?_, ?_⟩
      · simp only [List.map_map, Function.comp_def]
        exact hd _ (.variants e) _ ha
      · intro v hv
        obtain ⟨w, hw', rfl⟩ := List.mem_map.1 hv
        obtain ⟨f, hf, hsf⟩ := sameFieldLists_mem hs w.fields (List.mem_map_of_mem hw')
        obtain ⟨u, hu, rfl⟩ := List.mem_map.1 hf
        exact lowerFields_ok look _ hsf (hd _ (.fields (.variant e u hu))) (hw _ (.fields (.variant e u hu)))

end Mabo.Build
