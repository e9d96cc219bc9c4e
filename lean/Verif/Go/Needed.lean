import Verif.Go.UsesFile
/-! What a schema has to be like for its Go file to be valid. -/
namespace Mabo.Go
open Mabo.Simplify Mabo.Spec Mabo.Spec.GoRules Mabo.Spec.GoBuild Mabo.Build
open Mabo.Ast (DataType)
open Mabo.Parse (Text)

theorem fileTree_valid {checked : Bool} {name : String} {lines : List String} {ds : List Ast.Definition} {f : File}
    (h : FileTree checked name lines ds f) (hp : problems f = []) :
    ∃ es, Simplified checked ds es ∧ Valid es f ∧ f.package = snake name.toList := by
  obtain ⟨es, h1, h2⟩ := h
  simp only [fileOf, Option.bind_eq_bind, Option.bind_eq_some_iff, Option.pure_def, Option.some.injEq] at h2
  obtain ⟨decls, h3, rfl⟩ := h2
  exact ⟨es, h1, ⟨h3, rfl, hp⟩, rfl⟩

/-- Which values a constant can have. -/
theorem const_iff {t : DataType} {g : GTy} (h : constTree (simplifyType t) = some g) (v : Ast.Literal) :
    valueOk g v = true ↔ ConstFits t v := by
  cases t with
  | prim p =>
    rw [simplifyType] at h
    have r : ∀ x lo hi, rangeOf x = some (lo, hi) → ∀ i ts, (valueOk (.name x ts) (.int i) = true ↔ lo ≤ i ∧ i ≤ hi) := by
      intro x lo hi hr i ts
      simp [valueOk, hr]
    have rf : ∀ x, rangeOf x = none → ∀ i ts, valueOk (.name x ts) (.int i) = (x == "float32".toList || x == "float64".toList) := by
      intro x hr i ts
      simp [valueOk, hr]
    have b : ∀ (x : String) ts c, valueOk (.name (n x) ts) (.bool c) = (n x == "bool".toList) := fun _ _ _ => rfl
    have fl : ∀ (x : String) ts c, valueOk (.name (n x) ts) (.float c) = (n x != "bool".toList && n x != "string".toList) :=
      fun _ _ _ => rfl
    have st : ∀ (x : String) ts c, valueOk (.name (n x) ts) (.string c) = (n x == "string".toList) := fun _ _ _ => rfl
    have by' : ∀ (x : String) ts c, valueOk (.name (n x) ts) (.bytes c) = false := fun _ _ _ => rfl
    have pt : ∀ t v, valueOk (.ptr t) v = false := fun _ _ => rfl
    cases p <;> simp only [constTree, Option.some.injEq, reduceCtorEq] at h <;> subst h <;> cases v with
    | int i =>
      simp only [primTree, named, ConstFits, intRange]
      first
      | (rw [r _ _ _ rfl]; simp)
      | (rw [rf _ rfl]; exact iff_of_false (by decide) (by simp))
      | (rw [rf _ rfl]; exact iff_of_true (by decide) trivial)
      | (rw [pt]; simp)
      | (simp [byteSlice, valueOk])
    | bool c =>
      simp only [primTree, named, ConstFits]
      first
      | (rw [b]; decide)
      | (rw [pt]; simp)
      | (simp [byteSlice, valueOk])
    | float c =>
      simp only [primTree, named, ConstFits, intRange]
      first
      | (rw [fl]; exact iff_of_false (by decide) (by simp))
      | (rw [fl]; exact iff_of_true (by decide) (by simp))
      | (rw [pt]; simp)
      | (simp [byteSlice, valueOk])
    | string c =>
      simp only [primTree, named, ConstFits]
      first
      | (rw [st]; decide)
      | (rw [pt]; simp)
      | (simp [byteSlice, valueOk])
    | bytes c =>
      simp only [primTree, named, ConstFits]
      first
      | (rw [by']; simp; done)
      | (rw [pt]; simp)
      | (cases c <;> simp [byteSlice, valueOk])
  | _ => simp [simplifyType, constTree] at h

theorem Valid.any {checked : Bool} {ds : List Ast.Definition} {es : List Definition} {f : File} (hs : Simplified checked ds es)
    (h : Valid es f) {t : DataType} (ht : AnyType ds t) :
    ∃ g gs, defTree (simplifyType t) = some g ∧ tyProblems (bindTypes gs (fileScope f)) g = [] := by
  rcases ht with ht | ⟨a, ha, rfl⟩
  · obtain ⟨ret, x, gs, gfs, fld, hi, _, hf, he⟩ := field_of hs ht
    obtain ⟨g, h1, h2⟩ := h.field hi hf
    exact ⟨g, gs, he ▸ h1, h2⟩
  · obtain ⟨g, h1, h2⟩ := h.alias (alias_of hs ha)
    exact ⟨g, [], h1, h2⟩

theorem Valid.wide {checked : Bool} {ds : List Ast.Definition} {es : List Definition} {f : File} (hs : Simplified checked ds es)
    (h : Valid es f) {t : DataType} (ht : AnyType ds t) {p : Schema.Prim} (hp : p = .u128 ∨ p = .i128) : ¬ Bare (.prim p) t := by
  intro hb
  obtain ⟨g, gs, h1, h2⟩ := h.any hs ht
  obtain ⟨g', h3, h4⟩ := bare_valid hb h1 h2
  have : g' = .ptr (.qual (n "big") (n "Int") []) := by
    rw [simplifyType, defTree] at h3
    rcases hp with rfl | rfl <;> exact (Option.some.inj h3).symm
  subst this
  simp only [tyProblems, List.append_eq_nil_iff, demand_nil] at h4
  have := package_imported h4.1
  rw [h.imports, importTree] at this
  exact absurd this (by decide)

theorem Valid.mapKeys {checked : Bool} {ds : List Ast.Definition} {es : List Definition} {f : File} (hs : Simplified checked ds es)
    (h : Valid es f) {t : DataType} (ht : AnyType ds t) {k v : DataType} (hb : Bare (.hashMap k v) t) : Comparable k := by
  obtain ⟨g, gs, h1, h2⟩ := h.any hs ht
  obtain ⟨g', h3, h4⟩ := bare_valid hb h1 h2
  simp only [simplifyType, defTree, Option.bind_eq_bind, Option.bind_eq_some_iff, Option.pure_def, Option.some.injEq] at h3
  obtain ⟨gk, hk, gv, hv, rfl⟩ := h3
  simp only [tyProblems, List.append_eq_nil_iff, demand_nil] at h4
  exact (comparable_iff hk).1 h4.1.1

theorem Valid.setKeys {checked : Bool} {ds : List Ast.Definition} {es : List Definition} {f : File} (hs : Simplified checked ds es)
    (h : Valid es f) {t : DataType} (ht : AnyType ds t) {k : DataType} (hb : Bare (.hashSet k) t) : Comparable k := by
  obtain ⟨g, gs, h1, h2⟩ := h.any hs ht
  obtain ⟨g', h3, h4⟩ := bare_valid hb h1 h2
  simp only [simplifyType, defTree, Option.bind_eq_bind, Option.bind_eq_some_iff, Option.pure_def, Option.some.injEq] at h3
  obtain ⟨gk, hk, rfl⟩ := h3
  simp only [tyProblems, List.append_eq_nil_iff, demand_nil] at h4
  exact (comparable_iff hk).1 h4.1.1

theorem Valid.tuples {checked : Bool} {ds : List Ast.Definition} {es : List Definition} {f : File} (hs : Simplified checked ds es)
    (h : Valid es f) {t : DataType} (ht : FieldType ds t) {ts : List DataType} {tr : Bool} : ¬ OwnPiece (.tuple ts tr) t := by
  intro ho
  obtain ⟨ret, x, gs, gfs, fld, hi, hu, hf, he⟩ := field_of hs ht
  have hk : gfs.kind ≠ .unit := fun hk => by rw [hu hk] at hf; cases hf
  obtain ⟨u, e, y, Γ, hty, hsz, hp⟩ := h.size hi hk hf
  rcases hty with hty | ⟨hty, hno⟩
  · rw [he] at hty
    cases t with
    | option t' =>
      simp only [simplifyType, Ty.option.injEq] at hty
      subst hty
      cases ho with
      | option ho => exact size_tuple ho hsz hp
    | _ => simp [simplifyType] at hty
  · rw [← hty, he] at hsz
    exact size_tuple ho hsz hp

theorem structTree_names {fs : Fields} {b : TypeBody} (h : structTree fs = some b) :
    ∃ gfs, b = .struct gfs ∧ gfs.map (·.name) = fs.fields.map fieldName := by
  simp only [structTree, Option.bind_eq_bind, Option.bind_eq_some_iff, Option.pure_def, Option.some.injEq] at h
  obtain ⟨gfs, hg, rfl⟩ := h
  refine ⟨gfs, rfl, ?_⟩
  revert hg
  generalize fs.fields = l
  induction l generalizing gfs with
  | nil => intro h; cases h; rfl
  | cons a l ih =>
    intro h
    simp only [allOf, Option.bind_eq_bind, Option.bind_eq_some_iff, Option.pure_def, Option.some.injEq] at h
    obtain ⟨gf, ⟨g, _, rfl⟩, rest, hr, rfl⟩ := h
    simp [ih rest hr]

theorem params_names {l : List Field} {ps : List (Text × GTy)}
    (h : allOf (fun f : Field => do pure (paramName f, ← defTree f.ty)) l = some ps) : ps.map (·.1) = l.map paramName := by
  induction l generalizing ps with
  | nil => cases h; rfl
  | cons a l ih =>
    simp only [allOf, Option.bind_eq_bind, Option.bind_eq_some_iff, Option.pure_def, Option.some.injEq] at h
    obtain ⟨gf, ⟨g, _, rfl⟩, rest, hr, rfl⟩ := h
    simp [ih hr]

theorem method_enc {es : List Definition} {decls : List Decl} (h : declsOf es = some decls) {ret : String} {name : Text}
    {gs : List Text} {fs : Fields} (hi : ItemOf es ret name gs fs) : n "Encode" ∈ (methodsOf decls name).map (·.name) := by
  obtain ⟨ls, hl, hm⟩ := (item_parts h hi).enc
  simp only [encMethodTree, Option.bind_eq_bind, Option.bind_eq_some_iff, Option.pure_def, Option.some.injEq] at hl
  obtain ⟨b, hb, rfl⟩ := hl
  simp only [methodsOf, List.mem_map, List.mem_filterMap]
  exact ⟨⟨n "Encode", some 1⟩, ⟨_, hm _ (List.mem_cons_of_mem _ (List.mem_cons_of_mem _ List.mem_cons_self)), by simp⟩, rfl⟩

theorem method_size {es : List Definition} {decls : List Decl} (h : declsOf es = some decls) {ret : String} {name : Text}
    {gs : List Text} {fs : Fields} (hi : ItemOf es ret name gs fs) : n "Size" ∈ (methodsOf decls name).map (·.name) := by
  obtain ⟨ls, hl, hm⟩ := (item_parts h hi).size
  simp only [sizeMethodTree, Option.bind_eq_bind, Option.bind_eq_some_iff, Option.pure_def, Option.some.injEq] at hl
  obtain ⟨b, hb, rfl⟩ := hl
  simp only [methodsOf, List.mem_map, List.mem_filterMap]
  exact ⟨⟨n "Size", some 1⟩, ⟨_, hm _ (List.mem_cons_of_mem _ (List.mem_cons_of_mem _ List.mem_cons_self)), by simp⟩, rfl⟩

theorem Valid.fields {checked : Bool} {ds : List Ast.Definition} {es : List Definition} {f : File} (hs : Simplified checked ds es)
    (h : Valid es f) {x : Text} {gens : List String} {fs : Ast.Fields} (hi : GoBuild.Item ds x gens fs) :
    (goFields fs).Nodup ∧ n "Encode" ∉ goFields fs ∧ n "Decode" ∉ goFields fs ∧ n "Size" ∉ goFields fs := by
  obtain ⟨ret, gs, gfs, hio, hf, _⟩ := item_of hs hi
  obtain ⟨c, b, hb, hm⟩ := (item_parts h.decls hio).type
  obtain ⟨gf, rfl, hn⟩ := structTree_names hb
  have := h.decl hm
  simp only [declProblems, List.append_eq_nil_iff, namesOk_nil] at this
  have hnd := this.1.2.1
  rw [hn, (simplifyFields_names hf).1, List.nodup_append] at hnd
  refine ⟨hnd.1, fun he => ?_, fun he => ?_, fun he => ?_⟩
  · exact hnd.2.2 _ he _ (method_enc h.decls hio) rfl
  · exact hnd.2.2 _ he _ (List.mem_map_of_mem (item_decode h.decls hio)) rfl
  · exact hnd.2.2 _ he _ (method_size h.decls hio) rfl

theorem meaning_bind {ps : List (Text × GTy)} {Γ : GoRules.Scope} {x : Text} (h : x ∈ ps.map (·.1)) :
    ∃ t, meaning (GoRules.bind ps Γ) x = some (.variable t) := by
  induction ps with
  | nil => cases h
  | cons p ps ih =>
    by_cases hx : p.1 = x
    · exact ⟨p.2, by simp [meaning, GoRules.bind, hx]⟩
    · have hx' : x ∈ ps.map (·.1) := by
        rcases List.mem_cons.1 h with h | h
        · exact absurd h.symm hx
        · exact h
      obtain ⟨t, ht⟩ := ih hx'
      refine ⟨t, ?_⟩
      rw [← ht]
      simp [meaning, GoRules.bind, hx]

theorem Valid.params {checked : Bool} {ds : List Ast.Definition} {es : List Definition} {f : File} (hs : Simplified checked ds es)
    (h : Valid es f) {x : Text} {gens : List String} {fs : Ast.Fields} (hi : GoBuild.Item ds x gens fs) :
    (goParams fs).Nodup ∧ (∀ p ∈ goParams fs, p ∉ keywords) ∧ x ∉ goParams fs := by
  obtain ⟨ret, gs, gfs, hio, hf, _⟩ := item_of hs hi
  obtain ⟨d, hd, hm⟩ := (item_parts h.decls hio).new
  obtain ⟨ps, hps, rfl⟩ := newTree_func hd
  have := h.decl hm
  simp only [declProblems, List.append_eq_nil_iff, namesOk_nil] at this
  have hnd := this.1.1.1.2
  rw [params_names hps, (simplifyFields_names hf).2] at hnd
  refine ⟨hnd.1, hnd.2, fun hx => ?_⟩
  have hb := this.2
  simp only [stmtsProblems, stmtProblems, exprsProblems, exprProblems, selfType, tyProblems, List.append_eq_nil_iff] at hb
  have hx' : x ∈ ps.map (·.1) := by rw [params_names hps, (simplifyFields_names hf).2]; exact hx
  obtain ⟨t, ht⟩ := meaning_bind (Γ := bindTypes gs (fileScope f)) hx'
  have hty := hb.1.1.1.1.1
  rw [ht] at hty
  cases hty

/-- What is needed, references aside. -/
structure Needed (name : String) (ds : List Ast.Definition) : Prop where
  package : snake name.toList ∉ keywords
  runtime : ∃ t, AnyType ds t ∧ ∃ u, Piece u t ∧ IsRuntime u
  names : (ds.flatMap goNames).Nodup
  fields : ∀ x gens fs, GoBuild.Item ds x gens fs →
    (goFields fs).Nodup ∧ n "Encode" ∉ goFields fs ∧ n "Decode" ∉ goFields fs ∧ n "Size" ∉ goFields fs
  params : ∀ x gens fs, GoBuild.Item ds x gens fs → (goParams fs).Nodup ∧ (∀ p ∈ goParams fs, p ∉ keywords) ∧ x ∉ goParams fs
  tuples : ∀ t, FieldType ds t → ∀ ts tr, ¬ OwnPiece (.tuple ts tr) t
  wide : ∀ t, AnyType ds t → ¬ Bare (.prim .u128) t ∧ ¬ Bare (.prim .i128) t
  keys : ∀ t, AnyType ds t → (∀ k v, Bare (.hashMap k v) t → Comparable k) ∧ ∀ k, Bare (.hashSet k) t → Comparable k
  consts : ∀ c, Ast.Definition.const c ∈ ds → ConstFits c.ty c.value

theorem Valid.uses {es : List Definition} {f : File} (h : Valid es f) {p : Text} (hp : p = n "mabo" ∨ p = n "buf") :
    ∃ d ∈ f.decls, declUses p d = true := by
  have := h.valid
  simp only [problems, List.append_eq_nil_iff, List.flatMap_eq_nil_iff, demand_nil, h.imports, importTree] at this
  have := this.1.2
  rcases hp with rfl | rfl
  · exact List.any_eq_true.1 (this _ List.mem_cons_self)
  · exact List.any_eq_true.1 (this _ (List.mem_cons_of_mem _ List.mem_cons_self))

theorem needed {checked : Bool} {name : String} {lines : List String} {ds : List Ast.Definition} {f : File}
    (h : FileTree checked name lines ds f) (hp : problems f = []) : Needed name ds := by
  obtain ⟨es, hs, hv, hpk⟩ := fileTree_valid h hp
  constructor
  · have := hv.valid
    simp only [problems, List.append_eq_nil_iff, namesOk_nil, hpk] at this
    exact this.1.1.1.2 _ List.mem_cons_self
  · refine Classical.byContradiction fun hc => ?_
    obtain ⟨d, hd, hu⟩ := hv.uses (.inl rfl)
    rw [file_uses hs hv.decls (fun t ht hu => hc ⟨t, ht, uses_runtime.1 hu⟩) d hd] at hu
    cases hu
  · have := hv.declared
    rw [declsOf_names hv.decls, namesOf_go hs] at this
    exact this
  · exact fun x gens fs hi => hv.fields hs hi
  · exact fun x gens fs hi => hv.params hs hi
  · exact fun t ht ts tr => hv.tuples hs ht
  · exact fun t ht => ⟨hv.wide hs ht (.inl rfl), hv.wide hs ht (.inr rfl)⟩
  · exact fun t ht => ⟨fun k v => hv.mapKeys hs ht, fun k => hv.setKeys hs ht⟩
  · intro c hc
    obtain ⟨g, h1, _, h3⟩ := hv.const (const_of hs hc)
    exact (const_iff h1 _).1 h3

theorem needed_items {checked : Bool} {name : String} {lines : List String} {ds : List Ast.Definition} {f : File}
    (h : FileTree checked name lines ds f) (hp : problems f = []) :
    (∃ x gens fs, GoBuild.Item ds x gens fs) ∨
      ∃ t, AnyType ds t ∧ ∃ path x args tr, Piece (.external path x args tr) t ∧ path.getLast? = some "buf" := by
  obtain ⟨es, hs, hv, hpk⟩ := fileTree_valid h hp
  refine Classical.byContradiction fun hc => ?_
  rw [not_or] at hc
  obtain ⟨d, hd, hu⟩ := hv.uses (.inr rfl)
  rw [file_buf hs hv.decls (fun t ht hu => hc.2 ⟨t, ht, ?_⟩) (fun x gens fs hi => hc.1 ⟨x, gens, fs, hi⟩) d hd] at hu
  · cases hu
  · obtain ⟨u, hu, hq⟩ := hu
    cases u with
    | external path x as tr =>
      obtain ⟨q, hq, he⟩ := hq
      exact ⟨path, x, as, tr, hu, by rw [hq, ← String.toList_inj.1 he]⟩
    | nonZero _ => exact absurd hq (by simp only [Qual]; decide)
    | tuple _ _ => exact absurd hq (by simp only [Qual]; decide)
    | _ => cases hq

end Mabo.Go
