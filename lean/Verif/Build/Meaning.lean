import Verif.Build.Lemmas
import Verif.Spec.Build
/-! The generated crate means what the schemas say. -/
namespace Mabo.Build
open Mabo.Spec Mabo.Simplify

/-- What is needed of a reference. -/
def RefOk (look : List String → String → Option (List String)) (ref : List String → String → Nat → List String → Prop)
    (params : List String) (path : List String) (name : String) (args : List Ast.DataType) : Prop :=
  (path = [] ∧ name ∈ params ∧ args = []) ∨
    (¬ (path = [] ∧ name ∈ params) ∧ ∃ abs, look path name = some abs ∧ ref path name args.length abs)

/-- What is needed of the references in a type. -/
def RefsOk (look : List String → String → Option (List String)) (ref : List String → String → Nat → List String → Prop)
    (params : List String) (t : Ast.DataType) : Prop :=
  ∀ path name args tr, Anywhere (.external path name args tr) t → RefOk look ref params path name args

variable {look : List String → String → Option (List String)} {ref : List String → String → Nat → List String → Prop}
  {params : List String}

mutual
theorem lowerTy_means : ∀ {t : Ast.DataType} {u : Ty}, SameType t u → RefsOk look ref params t →
    TypeMeans ref params t (lowerTy look params u)
  | _, _, .prim p, _ => .prim p
  | _, _, .vec h, hr => by
    simp only [lowerTy]; exact .vec (lowerTy_means h fun p n a tr hw => hr p n a tr (.vec hw))
  | _, _, .hashMap h1 h2, hr => by
    simp only [lowerTy]
    exact .hashMap (lowerTy_means h1 fun p n a tr hw => hr p n a tr (.hashMapKey hw))
      (lowerTy_means h2 fun p n a tr hw => hr p n a tr (.hashMapValue hw))
  | _, _, .hashSet h, hr => by
    simp only [lowerTy]; exact .hashSet (lowerTy_means h fun p n a tr hw => hr p n a tr (.hashSet hw))
  | _, _, .option h, hr => by
    simp only [lowerTy]; exact .option (lowerTy_means h fun p n a tr hw => hr p n a tr (.option hw))
  | _, _, .nonZero h, hr => by
    simp only [lowerTy]; exact .nonZero (lowerTy_means h fun p n a tr hw => hr p n a tr (.nonZero hw))
  | _, _, .tuple h, hr => by
    simp only [lowerTy]; exact .tuple (lowerTys_means h fun t ht p n a tr hw => hr p n a tr (.tuple ht hw))
  | _, _, .array h, hr => by
    simp only [lowerTy]; exact .array (lowerTy_means h fun p n a tr hw => hr p n a tr (.array hw))
  | _, _, .external (p := p) (n := n) (ts := ts) (us := us) (tr := tr) h, hr => by
    have hargs := lowerTys_means h fun t ht p n a tr hw => hr p n a tr (.argument ht hw)
    simp only [lowerTy]
    rcases hr p n ts tr .here with ⟨h1, h2, h3⟩ | ⟨h1, abs, h2, h3⟩
    · rw [if_pos ⟨h1, h2⟩]
      subst h1; subst h3
      refine .param ?_
      rw [List.getElem?_eq_getElem (List.idxOf_lt_length_of_mem h2), List.getElem_idxOf]
    · rw [if_neg h1, h2]
      exact .named h1 h3 hargs
theorem lowerTys_means : ∀ {ts : List Ast.DataType} {us : List Ty}, SameTypes ts us →
    (∀ t ∈ ts, RefsOk look ref params t) → TypesMean ref params ts (lowerTys look params us)
  | _, _, .nil, _ => .nil
  | _, _, .cons h hs, hr => by
    simp only [lowerTys]
    exact .cons (lowerTy_means h (hr _ (List.mem_cons_self ..)))
      (lowerTys_means hs fun t ht => hr t (List.mem_cons_of_mem _ ht))
end

theorem lowerTys_map (us : List Ty) : lowerTys look params us = us.map (lowerTy look params) := by
  induction us with
  | nil => rfl
  | cons u us ih => simp only [lowerTys, ih, List.map_cons]

theorem typeOf_named {fs : List Ast.NamedField} {tr : Bool} {t : Ast.DataType} (h : t ∈ fs.map (·.ty)) :
    TypeOf (.named fs tr) t := by
  obtain ⟨f, hf, rfl⟩ := List.mem_map.1 h
  exact .named f hf

theorem typeOf_unnamed {fs : List Ast.UnnamedField} {tr : Bool} {t : Ast.DataType} (h : t ∈ fs.map (·.ty)) :
    TypeOf (.unnamed fs tr) t := by
  obtain ⟨f, hf, rfl⟩ := List.mem_map.1 h
  exact .unnamed f hf

theorem lowerFields_means {fs : Ast.Fields} {gs : Simplify.Fields} (h : SameFields fs gs)
    (hr : ∀ t, TypeOf fs t → RefsOk look ref params t) : FieldsMean ref params fs (lowerFields look params gs) := by
  cases h with
  | named h1 _ h2 h3 =>
    rename_i fs tr gs _
    refine .named ?_ ?_ ?_
    · rw [List.map_map]; exact h1
    · have := lowerTys_means (look := look) h2 fun t ht => hr t (typeOf_named ht)
      rw [lowerTys_map, List.map_map] at this
      rw [List.map_map]; exact this
    · rw [List.map_map]; exact h3
  | unnamed _ _ h2 h3 =>
    rename_i fs tr gs _ _
    refine .unnamed ?_ ?_
    · have := lowerTys_means (look := look) h2 fun t ht => hr t (typeOf_unnamed ht)
      rw [lowerTys_map, List.map_map] at this
      rw [List.map_map]; exact this
    · rw [List.map_map]; exact h3
  | unit => exact .unit

theorem fieldLists_means : ∀ {fs : List Ast.Fields} {gs : List Simplify.Fields}, SameFieldLists fs gs →
    (∀ f ∈ fs, ∀ t, TypeOf f t → RefsOk look ref params t) →
    FieldListsMean ref params fs (gs.map (lowerFields look params))
  | _, _, .nil, _ => .nil
  | _, _, .cons h hs, hr => .cons (lowerFields_means h (hr _ (List.mem_cons_self ..)))
      (fieldLists_means hs fun f hf => hr f (List.mem_cons_of_mem _ hf))

theorem lowerItem_means {d : Ast.Definition} {i : Item} (h : SameItem d i)
    (hr : ∀ path name args, Refers d path name args → RefOk look ref (typeParams d) path name args) :
    DefMeans ref d (lowerItem look i) := by
  have hr' : ∀ fs, FieldsOf d fs → ∀ t, TypeOf fs t → RefsOk look ref (typeParams d) t :=
    fun fs hf t ht p n a tr hw => hr p n a ⟨fs, t, tr, hf, ht, hw⟩
  cases h with
  | struct h =>
    cases h with
    | struct h => exact .struct (lowerFields_means h (hr' _ (.struct _)))
  | enum h =>
    cases h with
    | enum h1 _ h2 h3 =>
      rename_i e vs _
      refine .enum ?_ ?_ ?_
      · rw [List.map_map]; exact h1
      · rw [List.map_map]; exact h2
      · have := fieldLists_means (look := look) (ref := ref) (params := e.generics) h3 fun f hf t ht => by
          obtain ⟨v, hv, rfl⟩ := List.mem_map.1 hf
          exact hr' _ (.variant e v hv) t ht
        rw [List.map_map] at this
        rw [List.map_map]; exact this

/-! ### Paths -/

theorem declares_isType {ds : List Ast.Definition} {name : String} {n : Nat} (h : Declares ds name n) :
    ∃ d ∈ ds, IsType d ∧ defName d = name ∧ (typeParams d).length = n := by
  cases h with
  | struct s h1 h2 h3 => exact ⟨_, h1, .struct s, h2, h3⟩
  | enum s h1 h2 h3 => exact ⟨_, h1, .enum s, h2, h3⟩

theorem isType_declares {ds : List Ast.Definition} {d : Ast.Definition} (h : d ∈ ds) (ht : IsType d) :
    Declares ds (defName d) (typeParams d).length := by
  cases ht with
  | struct s => exact .struct s h rfl rfl
  | enum s => exact .enum s h rfl rfl

/-- A declared type is generated. -/
theorem declared_item {values : List (String × Ast.Schema)} {files : Files} (hg : Generated values files)
    (hu : ∀ v ∈ values, UniqueNames v.2.definitions) {stem : String} {s : Ast.Schema} (hs : (stem, s) ∈ values)
    {mods : List String} {scope : List Ast.Definition} (hp : ScopeAt s.definitions mods scope) {name : String} {n : Nat}
    (hd : Declares scope name n) :
    ∃ i, itemAt files (stem :: mods ++ [name]) = some i ∧ i.generics.length = n := by
  obtain ⟨d, h1, h2, rfl, h4⟩ := declares_isType hd
  obtain ⟨i, h5, h6⟩ := itemAt_fwd hg hs (hu _ hs) hp h1 h2
  exact ⟨i, h5, by rw [h6.generics, h4]⟩

theorem scopeAt_append {a b c : List Ast.Definition} {p q : List String} (h : ScopeAt a p b) (h' : ScopeAt b q c) :
    ScopeAt a (p ++ q) c := by
  induction h with
  | here => exact h'
  | enter hm _ ih => exact .enter hm (ih h')

/-- What a reference denotes is what its path means in the generated crate. -/
theorem resolvePath_denotes {values : List (String × Ast.Schema)} {files : Files} (hg : Generated values files)
    (hu : ∀ v ∈ values, UniqueNames v.2.definitions) {stem : String} {s : Ast.Schema} {mods : List String}
    {scope : List Ast.Definition} (hp : Place values stem s mods scope) {path : List String} {name : String} {n : Nat}
    {abs : List String} (h : Denotes values stem s mods scope path name n abs) :
    resolvePath files (stem :: mods) path name = some abs ∧ ∃ i, itemAt files abs = some i ∧ i.generics.length = n := by
  have hus := hu _ hp.schema
  obtain ⟨es, h1, h2⟩ := scopeOf_fwd hg hp.schema hus hp.scope
  cases h with
  | loc hl hd =>
    refine ⟨?_, ?_⟩
    · simp only [resolvePath, h1]
      cases hl with
      | here =>
        obtain ⟨d, h3, h4, rfl, _⟩ := declares_isType hd
        obtain ⟨i, h5, h6⟩ := findItem_fwd h2 (hus.at hp.scope).here h3 h4
        simp [h5]
      | enter hm _ =>
        obtain ⟨es', h5, _⟩ := childModule_fwd h2 (hus.at hp.scope).here hm
        simp [h5]
    · have := declared_item hg hu hp.schema (scopeAt_append hp.scope hl) hd
      simpa using this
  | imported hm hi hs' hl hd =>
    subst hm
    cases hp.scope
    refine ⟨?_, ?_⟩
    · simp only [resolvePath, h1]
      rw [findItem_none h2 hus.here hi (by simp [introduced]), importOf_fwd h2 hus.here hi]
      simp
    · exact declared_item hg hu hs' hl hd

end Mabo.Build
