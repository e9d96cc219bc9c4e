import Verif.Go.CheckFile
/-! From the definitions of a schema to the declarations of the file. -/
namespace Mabo.Go
open Mabo.Simplify Mabo.Spec Mabo.Spec.GoRules Mabo.Spec.GoBuild Mabo.Build
open Mabo.Ast (DataType)
open Mabo.Generator (simplifyFields_types)
open Mabo.Parse (Text)

/-- The definitions and what becomes of them. -/
abbrev Simplified (checked : Bool) : List Ast.Definition → List Definition → Prop :=
  Each (fun d e => simplifyDefinition checked d = some e)

/-! ### Fields -/

theorem simplifyNamed_names (checked : Bool) : ∀ (fs : List Ast.NamedField) (g : BitVec 32) (gs : List Field),
    simplifyNamed checked g fs = some gs → gs.map (·.name) = fs.map (·.name)
  | [], _, gs, h => by cases h; rfl
  | f :: fs, g, gs, h => by
    simp only [simplifyNamed, Option.bind_eq_bind, Option.bind_eq_some_iff] at h
    obtain ⟨⟨id, g'⟩, _, rest, hr, hh⟩ := h
    cases hh
    simp [simplifyNamed_names checked fs g' rest hr]

theorem simplifyUnnamed_names (checked : Bool) : ∀ (fs : List Ast.UnnamedField) (i : Nat) (g : BitVec 32) (gs : List Field),
    simplifyUnnamed checked i g fs = some gs → gs.map (·.name) = fs.mapIdx fun j _ => "n" ++ Nat.repr (j + i)
  | [], _, _, gs, h => by cases h; rfl
  | f :: fs, i, g, gs, h => by
    simp only [simplifyUnnamed, Option.bind_eq_bind, Option.bind_eq_some_iff] at h
    obtain ⟨⟨id, g'⟩, _, rest, hr, hh⟩ := h
    cases hh
    rw [List.map_cons, simplifyUnnamed_names checked fs (i + 1) g' rest hr, List.mapIdx_cons]
    simp only [Nat.zero_add, List.cons.injEq, true_and]
    congr 1
    funext j _
    rw [Nat.add_assoc, Nat.add_comm i 1]

theorem simplifyFields_names {checked : Bool} {fs : Ast.Fields} {gs : Fields} (h : simplifyFields checked fs = some gs) :
    gs.fields.map fieldName = goFields fs ∧ gs.fields.map paramName = goParams fs := by
  have key : ∀ (l : List Field) (g : Text → Text), l.map (fun f => g f.name.toList) = (l.map (·.name)).map fun x => g x.toList := by
    intro l g; simp
  have e1 : fieldName = fun f => upperCamel f.name.toList := rfl
  have e2 : paramName = fun f => lowerCamel f.name.toList := rfl
  rw [e1, e2]
  cases fs with
  | named fs tr =>
    simp only [simplifyFields, Option.bind_eq_bind, Option.bind_eq_some_iff, Option.pure_def, Option.some.injEq] at h
    obtain ⟨l, hl, rfl⟩ := h
    simp only [key, simplifyNamed_names checked fs _ l hl, goFields, goParams, List.map_map]
    exact ⟨rfl, rfl⟩
  | unnamed fs tr =>
    simp only [simplifyFields, Option.bind_eq_bind, Option.bind_eq_some_iff, Option.pure_def, Option.some.injEq] at h
    obtain ⟨l, hl, rfl⟩ := h
    have hk : ∀ g : Text → Text, (fs.mapIdx fun j _ => "n" ++ Nat.repr j).map (fun x => g x.toList) =
        fs.mapIdx fun j _ => g ("n" ++ Nat.repr j).toList := by
      intro g
      apply List.ext_getElem
      · simp
      · intro i h1 h2; simp
    simp only [key, simplifyUnnamed_names checked fs _ _ l hl, goFields, goParams, hk, Nat.add_zero, and_self]
  | unit => cases h; exact ⟨rfl, rfl⟩

theorem simplifyFields_unitEmpty {checked : Bool} {fs : Ast.Fields} {gs : Fields} (h : simplifyFields checked fs = some gs) :
    gs.kind = .unit → gs.fields = [] := by
  cases fs with
  | named fs tr =>
    simp only [simplifyFields, Option.bind_eq_bind, Option.bind_eq_some_iff, Option.pure_def, Option.some.injEq] at h
    obtain ⟨l, hl, rfl⟩ := h
    intro h; cases h
  | unnamed fs tr =>
    simp only [simplifyFields, Option.bind_eq_bind, Option.bind_eq_some_iff, Option.pure_def, Option.some.injEq] at h
    obtain ⟨l, hl, rfl⟩ := h
    intro h; cases h
  | unit => cases h; intro _; rfl

theorem typeOf_iff {checked : Bool} {fs : Ast.Fields} {gs : Fields} (h : simplifyFields checked fs = some gs) :
    (∀ t, TypeOf fs t → ∃ f ∈ gs.fields, f.ty = simplifyType t) ∧ ∀ f ∈ gs.fields, ∃ t, TypeOf fs t ∧ f.ty = simplifyType t := by
  have hm := simplifyFields_types h
  constructor
  · intro t ht
    have : simplifyType t ∈ gs.fields.map (·.ty) := by
      rw [hm]
      refine List.mem_map_of_mem ?_
      cases ht with
      | named f hf => exact List.mem_map_of_mem hf
      | unnamed f hf => exact List.mem_map_of_mem hf
    obtain ⟨f, hf, he⟩ := List.mem_map.1 this
    exact ⟨f, hf, he⟩
  · intro f hf
    have : f.ty ∈ (Compiler.fieldTypes fs).map simplifyType := hm ▸ List.mem_map_of_mem hf
    obtain ⟨t, ht, he⟩ := List.mem_map.1 this
    refine ⟨t, ?_, he.symm⟩
    cases fs with
    | named fs tr => obtain ⟨x, hx, rfl⟩ := List.mem_map.1 ht; exact .named x hx
    | unnamed fs tr => obtain ⟨x, hx, rfl⟩ := List.mem_map.1 ht; exact .unnamed x hx
    | unit => cases ht

/-! ### Structs and variants -/

theorem simplifyVariants_iff {checked : Bool} : ∀ {vs : List Ast.Variant} {g : BitVec 32} {ws : List Variant},
    simplifyVariants checked g vs = some ws →
    (∀ v ∈ vs, ∃ w ∈ ws, w.name = v.name ∧ simplifyFields checked v.fields = some w.fields) ∧
    (∀ w ∈ ws, ∃ v ∈ vs, w.name = v.name ∧ simplifyFields checked v.fields = some w.fields) ∧
    ws.map (·.name) = vs.map (·.name)
  | [], g, ws, h => by cases h; simp
  | v :: vs, g, ws, h => by
    simp only [simplifyVariants, Option.bind_eq_bind, Option.bind_eq_some_iff] at h
    obtain ⟨fs, hfs, ⟨id, g'⟩, _, rest, hr, hh⟩ := h
    cases hh
    obtain ⟨h1, h2, h3⟩ := simplifyVariants_iff hr
    refine ⟨fun x hx => ?_, fun x hx => ?_, by simp [h3]⟩
    · rcases List.mem_cons.1 hx with rfl | hx
      · exact ⟨_, List.mem_cons_self, rfl, hfs⟩
      · obtain ⟨w, hw, h⟩ := h1 x hx
        exact ⟨w, List.mem_cons_of_mem _ hw, h⟩
    · rcases List.mem_cons.1 hx with rfl | hx
      · exact ⟨_, List.mem_cons_self, rfl, hfs⟩
      · obtain ⟨w, hw, h⟩ := h2 x hx
        exact ⟨w, List.mem_cons_of_mem _ hw, h⟩

theorem each_left {α β : Type} {R : α → β → Prop} {as : List α} {bs : List β} (h : Each R as bs) :
    ∀ a ∈ as, ∃ b ∈ bs, R a b := by
  induction h with
  | nil => simp
  | @cons a b as bs hab _ ih =>
    intro x hx
    rcases List.mem_cons.1 hx with rfl | hx
    · exact ⟨b, List.mem_cons_self, hab⟩
    · obtain ⟨y, hy, h⟩ := ih x hx
      exact ⟨y, List.mem_cons_of_mem _ hy, h⟩

theorem item_of {checked : Bool} {ds : List Ast.Definition} {es : List Definition} (h : Simplified checked ds es) {x : Text}
    {gens : List String} {fs : Ast.Fields} (hi : Item ds x gens fs) :
    ∃ ret gs gfs, ItemOf es ret x gs gfs ∧ simplifyFields checked fs = some gfs ∧ (gens = [] → gs = []) := by
  cases hi with
  | struct s hs =>
    obtain ⟨e, he, hd⟩ := each_left h _ hs
    simp only [simplifyDefinition, Option.bind_eq_bind, Option.bind_eq_some_iff, Option.pure_def, Option.some.injEq] at hd
    obtain ⟨gfs, hg, rfl⟩ := hd
    exact ⟨_, _, gfs, .struct _ he, hg, fun h => by simp [h]⟩
  | variant e v hs hv =>
    obtain ⟨e', he, hd⟩ := each_left h _ hs
    simp only [simplifyDefinition, Option.bind_eq_bind, Option.bind_eq_some_iff, Option.pure_def, Option.some.injEq] at hd
    obtain ⟨ws, hw, rfl⟩ := hd
    obtain ⟨w, hwm, hn, hf⟩ := (simplifyVariants_iff hw).1 v hv
    refine ⟨"nil", (e.generics.filter fun g => usesGeneric g w.fields).map String.toList, w.fields, ?_, hf, ?_⟩
    · have := ItemOf.variant (es := es) _ w he hwm
      simp only [hn] at this
      exact this
    · intro h; simp [h]

theorem of_item {checked : Bool} {ds : List Ast.Definition} {es : List Definition} (h : Simplified checked ds es) {ret : String}
    {x : Text} {gs : List Text} {gfs : Fields} (hi : ItemOf es ret x gs gfs) :
    ∃ gens fs, Item ds x gens fs ∧ simplifyFields checked fs = some gfs ∧ (gens = [] → gs = []) := by
  cases hi with
  | struct s hs =>
    obtain ⟨d, hd, he⟩ := h.right _ hs
    cases d with
    | struct s' =>
      simp only [simplifyDefinition, Option.bind_eq_bind, Option.bind_eq_some_iff, Option.pure_def, Option.some.injEq, Definition.struct.injEq] at he
      obtain ⟨gfs, hg, rfl⟩ := he
      exact ⟨_, _, .struct s' hd, hg, fun h => by simp [h]⟩
    | _ => simp [simplifyDefinition, Option.bind_eq_some_iff] at he
  | variant e v hs hv =>
    obtain ⟨d, hd, he⟩ := h.right _ hs
    cases d with
    | enum e' =>
      simp only [simplifyDefinition, Option.bind_eq_bind, Option.bind_eq_some_iff, Option.pure_def, Option.some.injEq, Definition.enum.injEq] at he
      obtain ⟨ws, hw, rfl⟩ := he
      obtain ⟨w, hwm, hn, hf⟩ := (simplifyVariants_iff hw).2.1 v hv
      refine ⟨e'.generics, w.fields, ?_, hf, ?_⟩
      · have := Item.variant (ds := ds) e' w hd hwm
        simp only [← hn] at this
        exact this
      · intro h; simp [h]
    | _ => simp [simplifyDefinition, Option.bind_eq_some_iff] at he

theorem fieldType_iff {ds : List Ast.Definition} {t : DataType} :
    FieldType ds t ↔ ∃ x gens fs, Item ds x gens fs ∧ TypeOf fs t := by
  constructor
  · rintro ⟨d, hd, fs, hf, ht⟩
    cases hf with
    | struct s => exact ⟨_, _, _, .struct s hd, ht⟩
    | variant e v hv => exact ⟨_, _, _, .variant e v hd hv, ht⟩
  · rintro ⟨x, gens, fs, hi, ht⟩
    cases hi with
    | struct s hs => exact ⟨_, hs, _, .struct s, ht⟩
    | variant e v he hv => exact ⟨_, he, _, .variant e v hv, ht⟩

/-- The fields of a type in a schema. -/
theorem field_of {checked : Bool} {ds : List Ast.Definition} {es : List Definition} (h : Simplified checked ds es) {t : DataType}
    (ht : FieldType ds t) : ∃ ret x gs gfs fld, ItemOf es ret x gs gfs ∧ (gfs.kind = .unit → gfs.fields = []) ∧ fld ∈ gfs.fields ∧
      fld.ty = simplifyType t := by
  obtain ⟨x, gens, fs, hi, hty⟩ := fieldType_iff.1 ht
  obtain ⟨ret, gs, gfs, hio, hs, _⟩ := item_of h hi
  obtain ⟨fld, hf, he⟩ := (typeOf_iff hs).1 t hty
  exact ⟨ret, x, gs, gfs, fld, hio, simplifyFields_unitEmpty hs, hf, he⟩

theorem of_field {checked : Bool} {ds : List Ast.Definition} {es : List Definition} (h : Simplified checked ds es) {ret : String}
    {x : Text} {gs : List Text} {gfs : Fields} (hi : ItemOf es ret x gs gfs) {fld : Field} (hf : fld ∈ gfs.fields) :
    ∃ t, FieldType ds t ∧ fld.ty = simplifyType t := by
  obtain ⟨gens, fs, hi, hs, _⟩ := of_item h hi
  obtain ⟨t, ht, he⟩ := (typeOf_iff hs).2 fld hf
  exact ⟨t, fieldType_iff.2 ⟨_, _, _, hi, ht⟩, he⟩

theorem alias_of {checked : Bool} {ds : List Ast.Definition} {es : List Definition} (h : Simplified checked ds es) {a : Ast.TypeAlias}
    (ha : .typeAlias a ∈ ds) : .typeAlias ⟨a.comment, a.name, a.generics, simplifyType a.target⟩ ∈ es := by
  obtain ⟨e, he, hd⟩ := each_left h _ ha
  cases hd; exact he

theorem of_alias {checked : Bool} {ds : List Ast.Definition} {es : List Definition} (h : Simplified checked ds es) {b : TypeAlias}
    (hb : .typeAlias b ∈ es) : ∃ a : Ast.TypeAlias, .typeAlias a ∈ ds ∧ b.name = a.name ∧ b.target = simplifyType a.target := by
  obtain ⟨d, hd, he⟩ := h.right _ hb
  cases d with
  | typeAlias a => cases he; exact ⟨a, hd, rfl, rfl⟩
  | _ => simp [simplifyDefinition, Option.bind_eq_some_iff] at he

theorem const_of {checked : Bool} {ds : List Ast.Definition} {es : List Definition} (h : Simplified checked ds es) {c : Ast.Const}
    (hc : .const c ∈ ds) : .const ⟨c.comment, c.name, simplifyType c.ty, c.value⟩ ∈ es := by
  obtain ⟨e, he, hd⟩ := each_left h _ hc
  cases hd; exact he

theorem of_const {checked : Bool} {ds : List Ast.Definition} {es : List Definition} (h : Simplified checked ds es) {b : Const}
    (hb : .const b ∈ es) : ∃ c : Ast.Const, .const c ∈ ds ∧ b.value = c.value ∧ b.ty = simplifyType c.ty := by
  obtain ⟨d, hd, he⟩ := h.right _ hb
  cases d with
  | const c => cases he; exact ⟨c, hd, rfl, rfl⟩
  | _ => simp [simplifyDefinition, Option.bind_eq_some_iff] at he

/-! ### Names -/

theorem allOf_flatMap {α β γ : Type} {g : α → Option (List β)} {k : β → List γ} {m : α → List γ}
    (hg : ∀ a bs, g a = some bs → bs.flatMap k = m a) : ∀ {as : List α} {bss : List (List β)}, allOf g as = some bss →
    bss.flatten.flatMap k = as.flatMap m
  | [], bss, h => by cases h; rfl
  | a :: as, bss, h => by
    rw [allOf] at h
    simp only [Option.bind_eq_bind, Option.bind_eq_some_iff, Option.pure_def, Option.some.injEq] at h
    obtain ⟨b, hb, bs', hs, rfl⟩ := h
    simp [hg a b hb, allOf_flatMap hg hs]

theorem newTree_declared {name : Text} {gs : List Text} {fs : Fields} {d : Decl} (h : newTree name gs fs = some d) :
    declared d = [(n "New" ++ name, .other)] := by
  obtain ⟨ps, _, rfl⟩ := newTree_func h; rfl

theorem enc_declared {name : Text} {gs : List Text} {ret : String} {fs : Fields} {ls : List Decl}
    (h : encMethodTree name gs ret fs = some ls) : ls.flatMap declared = [] := by
  simp only [encMethodTree, Option.bind_eq_bind, Option.bind_eq_some_iff, Option.pure_def, Option.some.injEq] at h
  obtain ⟨b, hb, rfl⟩ := h; rfl

theorem dec_declared {name : Text} {gs : List Text} {fs : Fields} {ls : List Decl}
    (h : decMethodTree name gs fs = some ls) : ls.flatMap declared = [] := by
  simp only [decMethodTree, Option.bind_eq_bind, Option.bind_eq_some_iff, Option.pure_def, Option.some.injEq] at h
  obtain ⟨b, hb, rfl⟩ := h; rfl

theorem size_declared {name : Text} {gs : List Text} {fs : Fields} {ls : List Decl}
    (h : sizeMethodTree name gs fs = some ls) : ls.flatMap declared = [] := by
  simp only [sizeMethodTree, Option.bind_eq_bind, Option.bind_eq_some_iff, Option.pure_def, Option.some.injEq] at h
  obtain ⟨b, hb, rfl⟩ := h; rfl

/-- The names of a definition. -/
def namesOf : Definition → List Text
  | .struct s => [upperCamel s.name.toList, n "New" ++ upperCamel s.name.toList]
  | .enum e => [upperCamel e.name.toList ++ n "Variant", upperCamel e.name.toList] ++ e.variants.flatMap fun v =>
      [upperCamel e.name.toList ++ ['_'] ++ upperCamel v.name.toList,
        n "New" ++ (upperCamel e.name.toList ++ ['_'] ++ upperCamel v.name.toList)]
  | .typeAlias a => [upperCamel a.name.toList]
  | .const c => [upperCamel c.name.toList]
  | .module _ _ _ | .import _ _ => []

theorem declsOne_names {e : Definition} {here : List Decl} (h : declsOne e = some here) :
    (here.flatMap declared).map (·.1) = namesOf e := by
  cases e with
  | struct s =>
    simp only [declsOne, structDecls, Option.bind_eq_bind, Option.bind_eq_some_iff, Option.pure_def, Option.some.injEq] at h
    obtain ⟨b, hb, nw, hn, en, hen, de, hde, si, hsz, rfl⟩ := h
    obtain ⟨ps, _, rfl⟩ := newTree_func hn
    simp only [List.flatMap_append, List.flatMap_cons, List.flatMap_nil, enc_declared hen, dec_declared hde,
      size_declared hsz, declared, namesOf, List.append_nil, List.nil_append, List.cons_append, List.map_cons, List.map_nil]
  | enum e =>
    simp only [declsOne, enumDecls, Option.bind_eq_bind, Option.bind_eq_some_iff, Option.pure_def, Option.some.injEq] at h
    obtain ⟨vs, hvs, rfl⟩ := h
    have hv : ∀ (v : Variant) (x : List Decl), variantDecls e.name e.generics v = some x →
        x.flatMap (fun d => (declared d).map (·.1)) = [upperCamel e.name.toList ++ ['_'] ++ upperCamel v.name.toList,
          n "New" ++ (upperCamel e.name.toList ++ ['_'] ++ upperCamel v.name.toList)] := by
      intro v x h
      simp only [variantDecls, Option.bind_eq_bind, Option.bind_eq_some_iff, Option.pure_def, Option.some.injEq] at h
      obtain ⟨b, hb, nw, hn, en, hen, de, hde, si, hsz, rfl⟩ := h
      rw [← List.map_flatMap]
      obtain ⟨ps, _, rfl⟩ := newTree_func hn
      simp only [List.flatMap_append, List.flatMap_cons, List.flatMap_nil, enc_declared hen, dec_declared hde,
        size_declared hsz, declared, List.append_nil, List.nil_append, List.cons_append, List.map_cons, List.map_nil]
    have := allOf_flatMap hv hvs
    rw [List.map_flatMap, List.flatMap_append, List.flatMap_append, this]
    simp [declared, namesOf]
  | typeAlias a =>
    simp only [declsOne, aliasDecls, Option.bind_eq_bind, Option.bind_eq_some_iff, Option.pure_def, Option.some.injEq] at h
    obtain ⟨t, ht, rfl⟩ := h; rfl
  | const c =>
    simp only [declsOne, constDecls, Option.bind_eq_bind, Option.bind_eq_some_iff, Option.pure_def, Option.some.injEq] at h
    obtain ⟨t, ht, rfl⟩ := h; rfl
  | «module» _ _ _ => cases h; rfl
  | «import» _ _ => cases h; rfl

theorem declsOf_names : ∀ {es : List Definition} {decls : List Decl}, declsOf es = some decls →
    (decls.flatMap declared).map (·.1) = es.flatMap namesOf
  | [], decls, h => by cases h; rfl
  | e :: es, decls, h => by
    rw [declsOf_cons] at h
    simp only [Option.bind_eq_some_iff, Option.some.injEq] at h
    obtain ⟨here, h1, rest, h2, rfl⟩ := h
    rw [List.flatMap_append, List.map_append, declsOne_names h1, declsOf_names h2, List.flatMap_cons]

theorem namesOf_go {checked : Bool} {ds : List Ast.Definition} {es : List Definition} (h : Simplified checked ds es) :
    es.flatMap namesOf = ds.flatMap goNames := by
  induction h with
  | nil => rfl
  | @cons d e ds es hd _ ih =>
    rw [List.flatMap_cons, List.flatMap_cons, ih]
    congr 1
    cases d with
    | struct s =>
      simp only [simplifyDefinition, Option.bind_eq_bind, Option.bind_eq_some_iff, Option.pure_def, Option.some.injEq] at hd
      obtain ⟨gfs, hg, rfl⟩ := hd; rfl
    | enum e =>
      simp only [simplifyDefinition, Option.bind_eq_bind, Option.bind_eq_some_iff, Option.pure_def, Option.some.injEq] at hd
      obtain ⟨ws, hw, rfl⟩ := hd
      have := (simplifyVariants_iff hw).2.2
      simp only [namesOf, goNames, List.append_cancel_left_eq]
      have key : ∀ (l : List Variant) (m : List Ast.Variant), l.map (·.name) = m.map (·.name) → ∀ g : String → List Text,
          l.flatMap (fun v => g v.name) = m.flatMap fun v => g v.name := by
        intro l m h g
        have e1 : l.flatMap (fun v => g v.name) = (l.map (·.name)).flatMap g := by simp [List.flatMap_map]
        have e2 : m.flatMap (fun v => g v.name) = (m.map (·.name)).flatMap g := by simp [List.flatMap_map]
        rw [e1, e2, h]
      exact key ws e.variants this fun x => [upperCamel e.name.toList ++ ['_'] ++ upperCamel x.toList,
        n "New" ++ (upperCamel e.name.toList ++ ['_'] ++ upperCamel x.toList)]
    | typeAlias a => cases hd; rfl
    | const c => cases hd; rfl
    | «module» c x ds =>
      simp only [simplifyDefinition, Option.bind_eq_bind, Option.bind_eq_some_iff, Option.pure_def, Option.some.injEq] at hd
      obtain ⟨_, _, rfl⟩ := hd; rfl
    | «import» i => cases hd; rfl

end Mabo.Go
