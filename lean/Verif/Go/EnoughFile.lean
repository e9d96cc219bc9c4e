import Verif.Go.Enough
/-! Files without violations. -/
namespace Mabo.Go
open Mabo.Simplify Mabo.Spec Mabo.Spec.GoRules Mabo.Spec.GoBuild Mabo.Build
open Mabo.Ast (DataType)
open Mabo.Parse (Text)

/-! ### Methods of a type -/

/-- All methods belong to types that are declared, and are different. -/
structure Methods (decls : List Decl) : Prop where
  own : ∀ x, methodsOf decls x ≠ [] → x ∈ (decls.flatMap declared).map (·.1)
  ok : ∀ x, ((methodsOf decls x).map (·.name)).Nodup ∧
    ∀ m ∈ (methodsOf decls x).map (·.name), m ∈ [n "sealed", n "Encode", n "Decode", n "Size"]

theorem methodsOf_append (a b : List Decl) (x : Text) : methodsOf (a ++ b) x = methodsOf a x ++ methodsOf b x := by
  simp [methodsOf, List.filterMap_append]

theorem Methods.append {a b : List Decl} (ha : Methods a) (hb : Methods b) (hn : (((a ++ b).flatMap declared).map (·.1)).Nodup) :
    Methods (a ++ b) := by
  rw [List.flatMap_append, List.map_append, List.nodup_append] at hn
  constructor
  · intro x hx
    rw [methodsOf_append] at hx
    rw [List.flatMap_append, List.map_append, List.mem_append]
    by_cases h : methodsOf a x = []
    · rw [h, List.nil_append] at hx; exact .inr (hb.own x hx)
    · exact .inl (ha.own x h)
  · intro x
    rw [methodsOf_append]
    by_cases h : methodsOf a x = []
    · rw [h, List.nil_append]; exact hb.ok x
    · have : methodsOf b x = [] := Classical.byContradiction fun h' => hn.2.2 x (ha.own x h) x (hb.own x h') rfl
      rw [this, List.append_nil]; exact ha.ok x

theorem methods_none {decls : List Decl} (h : ∀ x, methodsOf decls x = []) : Methods decls :=
  ⟨fun x hx => absurd (h x) hx, fun x => by rw [h x]; simp⟩

theorem enc_methods {name : Text} {gs : List Text} {ret : String} {fs : Fields} {ls : List Decl}
    (h : encMethodTree name gs ret fs = some ls) (x : Text) : methodsOf ls x = if x = name then [⟨n "Encode", some 1⟩] else [] := by
  simp only [encMethodTree, Option.bind_eq_bind, Option.bind_eq_some_iff, Option.pure_def, Option.some.injEq] at h
  obtain ⟨b, hb, rfl⟩ := h
  by_cases hx : x = name <;> simp [methodsOf, hx]

theorem dec_methods {name : Text} {gs : List Text} {fs : Fields} {ls : List Decl}
    (h : decMethodTree name gs fs = some ls) (x : Text) : methodsOf ls x = if x = name then [⟨n "Decode", some 2⟩] else [] := by
  simp only [decMethodTree, Option.bind_eq_bind, Option.bind_eq_some_iff, Option.pure_def, Option.some.injEq] at h
  obtain ⟨b, hb, rfl⟩ := h
  by_cases hx : x = name <;> simp [methodsOf, hx]

theorem size_methods {name : Text} {gs : List Text} {fs : Fields} {ls : List Decl}
    (h : sizeMethodTree name gs fs = some ls) (x : Text) : methodsOf ls x = if x = name then [⟨n "Size", some 1⟩] else [] := by
  simp only [sizeMethodTree, Option.bind_eq_bind, Option.bind_eq_some_iff, Option.pure_def, Option.some.injEq] at h
  obtain ⟨b, hb, rfl⟩ := h
  by_cases hx : x = name <;> simp [methodsOf, hx]

theorem methods_of_if {decls : List Decl} {name : Text} {ms : List Member} (hm : ∀ x, methodsOf decls x = if x = name then ms else [])
    (hn : name ∈ (decls.flatMap declared).map (·.1)) (h1 : (ms.map (·.name)).Nodup)
    (h2 : ∀ m ∈ ms.map (·.name), m ∈ [n "sealed", n "Encode", n "Decode", n "Size"]) : Methods decls := by
  constructor
  · intro x hx
    rw [hm] at hx
    by_cases h : x = name
    · rw [h]; exact hn
    · rw [if_neg h] at hx; exact absurd rfl hx
  · intro x
    rw [hm]
    by_cases h : x = name
    · rw [if_pos h]; exact ⟨h1, h2⟩
    · rw [if_neg h]; simp

theorem variant_methods {x : String} {gens : List String} {v : Variant} {ls : List Decl} (h : variantDecls x gens v = some ls) :
    Methods ls := by
  simp only [variantDecls, Option.bind_eq_bind, Option.bind_eq_some_iff, Option.pure_def, Option.some.injEq] at h
  obtain ⟨b, hb, nw, hn, en, hen, de, hde, si, hsz, rfl⟩ := h
  obtain ⟨ps, _, rfl⟩ := newTree_func hn
  refine methods_of_if (name := upperCamel x.toList ++ ['_'] ++ upperCamel v.name.toList)
    (ms := [⟨n "sealed", some 0⟩, ⟨n "Encode", some 1⟩, ⟨n "Decode", some 2⟩, ⟨n "Size", some 1⟩]) ?_ ?_ (by simp; decide) (by simp)
  · intro y
    simp only [methodsOf_append, enc_methods hen, dec_methods hde, size_methods hsz]
    by_cases hy : y = upperCamel x.toList ++ ['_'] ++ upperCamel v.name.toList
    · simp [methodsOf, hy]
    · have hy' : ¬ y = upperCamel x.toList ++ '_' :: upperCamel v.name.toList := by simpa using hy
      simp [methodsOf, hy']
  · simp [declared]

theorem declsOne_methods {e : Definition} {here : List Decl} (h : declsOne e = some here) (hn : (namesOf e).Nodup) : Methods here := by
  have hnames := declsOne_names h
  cases e with
  | struct s =>
    simp only [declsOne, structDecls, Option.bind_eq_bind, Option.bind_eq_some_iff, Option.pure_def, Option.some.injEq] at h
    obtain ⟨b, hb, nw, hnw, en, hen, de, hde, si, hsz, rfl⟩ := h
    obtain ⟨ps, _, rfl⟩ := newTree_func hnw
    refine methods_of_if (name := upperCamel s.name.toList)
      (ms := [⟨n "Encode", some 1⟩, ⟨n "Decode", some 2⟩, ⟨n "Size", some 1⟩]) ?_ ?_ (by simp; decide) (by simp)
    · intro y
      simp only [methodsOf_append, enc_methods hen, dec_methods hde, size_methods hsz]
      by_cases hy : y = upperCamel s.name.toList <;> simp [methodsOf, hy]
    · simp [declared]
  | enum e =>
    simp only [declsOne, enumDecls, Option.bind_eq_bind, Option.bind_eq_some_iff, Option.pure_def, Option.some.injEq] at h
    obtain ⟨vs, hvs, rfl⟩ := h
    rw [← hnames] at hn
    have h1 : Methods vs.flatten := by
      have hnd : ((vs.flatten.flatMap declared).map (·.1)).Nodup := by
        simp only [List.flatMap_append, List.map_append, List.nodup_append] at hn
        exact hn.1.2.1
      clear hnames hn
      revert hvs
      generalize e.variants = l
      induction vs generalizing l with
      | nil => intro _; exact methods_none fun _ => rfl
      | cons b vs ih =>
        intro h
        cases l with
        | nil => cases h
        | cons a l =>
          simp only [allOf, Option.bind_eq_bind, Option.bind_eq_some_iff, Option.pure_def, Option.some.injEq, List.cons.injEq] at h
          obtain ⟨b', hb', rest, hr, rfl, rfl⟩ := h
          rw [List.flatten_cons] at hnd ⊢
          refine (variant_methods hb').append (ih ?_ l hr) hnd
          rw [List.flatMap_append, List.map_append, List.nodup_append] at hnd
          exact hnd.2.1
    rw [List.append_assoc] at hn ⊢
    refine (methods_none (by intro x; rfl)).append (h1.append (methods_none (by intro x; rfl)) ?_) hn
    rw [List.flatMap_append, List.map_append, List.nodup_append] at hn
    exact hn.2.1
  | typeAlias a =>
    simp only [declsOne, aliasDecls, Option.bind_eq_bind, Option.bind_eq_some_iff, Option.pure_def, Option.some.injEq] at h
    obtain ⟨t, ht, rfl⟩ := h; exact methods_none fun _ => rfl
  | const c =>
    simp only [declsOne, constDecls, Option.bind_eq_bind, Option.bind_eq_some_iff, Option.pure_def, Option.some.injEq] at h
    obtain ⟨t, ht, rfl⟩ := h; exact methods_none fun _ => rfl
  | «module» _ _ _ => cases h; exact methods_none fun _ => rfl
  | «import» _ _ => cases h; exact methods_none fun _ => rfl

theorem declsOf_methods : ∀ {es : List Definition} {decls : List Decl}, declsOf es = some decls → (es.flatMap namesOf).Nodup →
    Methods decls
  | [], decls, h, _ => by cases h; exact methods_none fun _ => rfl
  | e :: es, decls, h, hn => by
    have hnames := declsOf_names h
    rw [declsOf_cons] at h
    simp only [Option.bind_eq_some_iff, Option.some.injEq] at h
    obtain ⟨here, h1, rest, h2, rfl⟩ := h
    have hn' := hn
    rw [List.flatMap_cons, List.nodup_append] at hn'
    exact (declsOne_methods h1 hn'.1).append (declsOf_methods h2 hn'.2.1) (hnames ▸ hn)

/-! ### The scope of the file -/

theorem meaning_append (Γ Γ' : GoRules.Scope) (x : Text) : meaning (Γ ++ Γ') x = (meaning Γ x).or (meaning Γ' x) := by
  simp only [meaning, List.find?_append]
  cases Γ.find? fun b => b.1 = x <;> rfl

theorem meaning_none {Γ : GoRules.Scope} {x : Text} (h : x ∉ Γ.map (·.1)) : meaning Γ x = none := by
  simp only [meaning, Option.map_eq_none_iff, List.find?_eq_none, decide_eq_true_eq]
  exact fun b hb he => h (he ▸ List.mem_map_of_mem hb)

theorem meaning_nodup {Γ : GoRules.Scope} (hn : (Γ.map (·.1)).Nodup) {x : Text} {m : Meaning} (h : (x, m) ∈ Γ) :
    meaning Γ x = some m := by
  induction Γ with
  | nil => cases h
  | cons b Γ ih =>
    rw [List.map_cons, List.nodup_cons] at hn
    obtain ⟨y, m'⟩ := b
    rw [meaning_cons]
    rcases List.mem_cons.1 h with h | h
    · cases h; rw [if_pos rfl]
    · have : y ≠ x := fun he => hn.1 (by
        show y ∈ _
        rw [he]; exact List.mem_map_of_mem (f := Prod.fst) h)
      rw [if_neg this]; exact ih hn.2 h

theorem notLower_append {x : Text} (h : NotLower x) {c : Char} (hc : c.isLower = false) (cs : Text) : NotLower (x ++ c :: cs) := by
  intro d ds he
  cases x with
  | nil => injection he with he _; rw [← he]; exact hc
  | cons a as => rw [List.cons_append] at he; injection he with he _; exact h d as (by rw [he])

theorem notLower_cons {c : Char} (hc : c.isLower = false) (cs : Text) : NotLower (c :: cs) :=
  notLower_append (x := []) (fun _ _ h => nomatch h) hc cs

theorem variant_notLower (e v : Text) : NotLower (upperCamel e ++ ['_'] ++ upperCamel v) := by
  rw [List.append_assoc]; exact notLower_append (upperCamel_head e) (by decide) _

theorem namesOf_notLower {e : Definition} : ∀ x ∈ namesOf e, NotLower x := by
  intro x hx
  cases e with
  | struct s =>
    simp only [namesOf, List.mem_cons, List.not_mem_nil, or_false] at hx
    rcases hx with rfl | rfl
    · exact upperCamel_head _
    · exact notLower_cons (by decide) _
  | enum e =>
    simp only [namesOf, List.mem_append, List.mem_cons, List.not_mem_nil, or_false, List.mem_flatMap] at hx
    rcases hx with (rfl | rfl) | ⟨v, _, rfl | rfl⟩
    · exact notLower_append (upperCamel_head _) (by decide) _
    · exact upperCamel_head _
    · exact variant_notLower _ _
    · exact notLower_cons (by decide) _
  | typeAlias a => simp only [namesOf, List.mem_cons, List.not_mem_nil, or_false] at hx; subst hx; exact upperCamel_head _
  | const c => simp only [namesOf, List.mem_cons, List.not_mem_nil, or_false] at hx; subst hx; exact upperCamel_head _
  | «module» _ _ _ => cases hx
  | «import» _ _ => cases hx

theorem notLower_of {x : Text} {l : List Text} (hl : ∀ y ∈ l, (y.head?.map Char.isLower) = some true) (h : NotLower x) : x ∉ l := by
  intro hx
  have := hl x hx
  cases x with
  | nil => cases this
  | cons c cs => simp [h c cs rfl] at this

/-- What is known of a file whose names are different. -/
structure FileOk (es : List Definition) (f : File) : Prop where
  decls : declsOf es = some f.decls
  imports : f.imports = importTree
  nodup : (es.flatMap namesOf).Nodup

theorem FileOk.declared_nodup {es : List Definition} {f : File} (h : FileOk es f) : ((f.decls.flatMap declared).map (·.1)).Nodup := by
  rw [declsOf_names h.decls]; exact h.nodup

theorem FileOk.notLower {es : List Definition} {f : File} (h : FileOk es f) : ∀ x ∈ (f.decls.flatMap declared).map (·.1), NotLower x := by
  intro x hx
  rw [declsOf_names h.decls, List.mem_flatMap] at hx
  obtain ⟨e, _, he⟩ := hx
  exact namesOf_notLower x he

theorem FileOk.scope {es : List Definition} {f : File} (h : FileOk es f) (x : Text) : meaning (fileScope f) x =
    (((meaning [(n "mabo", .package), (n "buf", .package)] x).or (meaning (f.decls.flatMap declared) x)).or
      (meaning (predeclaredTypes.map (·, .type)) x)).or (meaning (predeclaredValues.map (·, .other)) x) := by
  rw [fileScope, meaning_append, meaning_append, meaning_append, h.imports]; rfl

theorem FileOk.base {es : List Definition} {f : File} (h : FileOk es f) : Base (fileScope f) where
  types x hx := by
    have h1 : x ∉ (f.decls.flatMap declared).map (·.1) := fun hm => by
      exact notLower_of (by decide) (h.notLower x hm) hx
    have h2 : ∀ y ∈ predeclaredTypes, y ≠ n "mabo" ∧ y ≠ n "buf" := by decide
    have h3 : meaning [(n "mabo", .package), (n "buf", .package)] x = none :=
      meaning_none (by simp [(h2 x hx).1, (h2 x hx).2])
    have h4 : ∀ l : List Text, l.Nodup → x ∈ l → meaning (l.map (·, Meaning.type)) x = some .type := fun l hl hx =>
      meaning_nodup (by simpa [List.map_map, Function.comp_def] using hl) (List.mem_map.2 ⟨x, hx, rfl⟩)
    rw [h.scope, meaning_none h1, h3, h4 _ (by decide) hx]; rfl
  buf := by rw [h.scope, meaning_cons, if_neg (by decide), meaning_cons, if_pos rfl]; rfl
  mabo := by rw [h.scope, meaning_cons, if_pos rfl]; rfl
  values x hx := by
    rw [meaning_isSome]
    exact ⟨.other, by rw [fileScope]; exact List.mem_append_right _ (List.mem_map.2 ⟨x, hx, rfl⟩)⟩

/-- A type that is declared is one in the scope of the file. -/
theorem FileOk.type {es : List Definition} {f : File} (h : FileOk es f) {c : List String} {x : Text} {ps : List Text} {b : TypeBody}
    (hm : Decl.type c x ps b ∈ f.decls) : meaning (fileScope f) x = some .type := by
  have hd : (x, Meaning.type) ∈ f.decls.flatMap declared := List.mem_flatMap.2 ⟨_, hm, by simp [declared]⟩
  have hl := h.notLower x (List.mem_map_of_mem (f := Prod.fst) hd)
  have h3 : meaning [(n "mabo", .package), (n "buf", .package)] x = none :=
    meaning_none (notLower_of (by decide) hl)
  rw [h.scope, h3, meaning_nodup h.declared_nodup hd]; rfl

/-! ### Types of the schema -/

theorem bare_piece {u t : DataType} (h : Bare u t) : Piece u t := by
  induction h with
  | here => exact .here
  | vec _ ih => exact .vec ih
  | hashMapKey _ ih => exact .hashMapKey ih
  | hashMapValue _ ih => exact .hashMapValue ih
  | hashSet _ ih => exact .hashSet ih
  | option _ ih => exact .option ih
  | array _ ih => exact .array ih
  | tuple hm _ ih => exact .tuple hm ih
  | argument hm _ ih => exact .argument hm ih
  | nonZeroVec _ ih => exact .nonZero (.vec ih)
  | nonZeroKey _ ih => exact .nonZero (.hashMapKey ih)
  | nonZeroValue _ ih => exact .nonZero (.hashMapValue ih)
  | nonZeroSet _ ih => exact .nonZero (.hashSet ih)

theorem good_plain {name : String} {ds : List Ast.Definition} (hg : Good name ds) (hr : NoReferences ds) {t : DataType}
    (ht : AnyType ds t) : PlainTy t := by
  intro u hu
  cases u with
  | prim p =>
    exact ⟨fun hp => (hg.wide t ht).1 (hp ▸ hu), fun hp => (hg.wide t ht).2 (hp ▸ hu)⟩
  | hashMap k v => exact (hg.keys t ht).1 k v hu
  | hashSet k => exact (hg.keys t ht).2 k hu
  | external path x args tr => exact hr t ht path x args tr (bare_piece hu)
  | _ => trivial

theorem itemOf_notLower {es : List Definition} {ret : String} {x : Text} {gs : List Text} {fs : Fields}
    (h : ItemOf es ret x gs fs) : NotLower x := by
  cases h with
  | struct s _ => exact upperCamel_head _
  | variant e v _ _ => exact variant_notLower _ _

theorem bind_base {Γ : GoRules.Scope} {x : Text} {ps : List (Text × GTy)} (hx : x ∉ ps.map (·.1)) :
    meaning (GoRules.bind ps Γ) x = meaning Γ x := by
  rw [GoRules.bind, meaning_append, meaning_none]; rfl
  simpa [List.map_map, Function.comp_def] using hx

/-- All conditions together. -/
theorem enough {checked : Bool} {name : String} {lines : List String} {ds : List Ast.Definition} {f : File}
    (hr : NoReferences ds) (hgen : NoGenerics ds) (h : FileTree checked name lines ds f) (hg : Good name ds) : problems f = [] := by
  obtain ⟨es, hs, h2⟩ := h
  simp only [fileOf, Option.bind_eq_bind, Option.bind_eq_some_iff, Option.pure_def, Option.some.injEq] at h2
  obtain ⟨decls, h3, rfl⟩ := h2
  have hok : FileOk es ⟨lines, snake name.toList, importTree, decls⟩ := ⟨h3, rfl, by rw [namesOf_go hs]; exact hg.names⟩
  generalize hf : (⟨lines, snake name.toList, importTree, decls⟩ : File) = f at hok
  have hfd : f.decls = decls := by rw [← hf]
  have hfp : f.package = snake name.toList := by rw [← hf]
  have hb := hok.base
  have hmeth := declsOf_methods hok.decls hok.nodup
  have nogs : ∀ {ret x gs fs}, ItemOf es ret x gs fs → gs = [] := fun hi => by
    obtain ⟨gens, fs', hi', _, hgs⟩ := of_item hs hi
    exact hgs (hgen _ _ _ hi')
  have fok : ∀ {ret x gs fs}, ItemOf es ret x gs fs → FieldsOk f.decls x fs ∧ meaning (fileScope f) x = some .type := fun {ret x gs fs} hi => by
    obtain ⟨c, b, hbt, hm⟩ := (item_parts hok.decls hi).type
    obtain ⟨gfs, rfl, hn⟩ := structTree_names hbt
    refine ⟨⟨itemOf_notLower hi, ⟨gfs, findType_of_mem hok.declared_nodup hm, hn⟩, fun fl hfl => ?_⟩, hok.type hm⟩
    obtain ⟨t, ht, he⟩ := of_field hs hi hfl
    exact ⟨t, he, good_plain hg hr (.inl ht), fun ts tr => hg.tuples t ht ts tr⟩
  have inm : ∀ {x}, NotLower x → meaning (fileScope f) x = some .type →
      InMethod x ((n "v", .variable (.name x [])) :: fileScope f) := fun {x} hx ht =>
    ⟨hb.cons (by decide) _, by rw [meaning_cons, if_pos rfl], by
      rw [meaning_cons, if_neg]
      · exact ht
      · exact hx.ne (c := 'v') (cs := []) (by decide)⟩
  have selfOk : ∀ {x}, meaning (fileScope f) x = some .type → tyProblems (fileScope f) (.name x []) = [] := fun {x} ht => by
    simp [tyProblems, ht, typeNameProblems, tysProblems]
  have hdecl : ∀ d ∈ f.decls, declProblems f.decls (fileScope f) d = [] := by
    intro d hd
    cases shape_of hok.decls hd with
    | type c hi hst =>
      rename_i ret x gs fs b
      obtain rfl := nogs hi
      obtain ⟨gfs, rfl, hn⟩ := structTree_names hst
      obtain ⟨gens, fs', hi', hsf, _⟩ := of_item hs hi
      have hfl := hg.fields _ _ _ hi'
      have hm := hmeth.ok x
      have hnames : namesOk (gfs.map (·.name) ++ (methodsOf f.decls x).map (·.name)) = [] := by
        rw [namesOk_nil, hn, (simplifyFields_names hsf).1]
        have hlow : ∀ y ∈ goFields fs', NotLower y := by
          intro y hy
          rw [← (simplifyFields_names hsf).1] at hy
          obtain ⟨fl, _, rfl⟩ := List.mem_map.1 hy
          exact upperCamel_head _
        constructor
        · rw [List.nodup_append]
          refine ⟨hfl.1, hm.1, fun a ha b hb' hab => ?_⟩
          subst hab
          have := hm.2 a hb'
          simp only [List.mem_cons, List.not_mem_nil, or_false] at this
          rcases this with rfl | rfl | rfl | rfl
          · exact notLower_of (l := [n "sealed"]) (by decide) (hlow _ ha) List.mem_cons_self
          · exact hfl.2.1 ha
          · exact hfl.2.2.1 ha
          · exact hfl.2.2.2 ha
        · intro y hy
          rcases List.mem_append.1 hy with hy | hy
          · exact notLower_of (by decide) (hlow y hy)
          · have hk : ∀ m ∈ [n "sealed", n "Encode", n "Decode", n "Size"], m ∉ keywords := by decide
            exact hk y (hm.2 y hy)
      have htys : tysProblems (fileScope f) (gfs.map (·.ty)) = [] := by
        rw [tysProblems_nil]
        intro g hgm
        obtain ⟨gf, hgf, rfl⟩ := List.mem_map.1 hgm
        simp only [structTree, Option.bind_eq_bind, Option.bind_eq_some_iff, Option.pure_def, Option.some.injEq] at hst
        obtain ⟨gfs', hall, heq⟩ := hst
        cases heq
        obtain ⟨fl, hfl, he⟩ := (allOf_mem hall).2 gf hgf
        simp only [Option.bind_eq_some_iff, Option.some.injEq] at he
        obtain ⟨g, hgd, rfl⟩ := he
        obtain ⟨t, het, hp, _⟩ := (fok hi).1.plain fl hfl
        exact ty_ok hb t (het ▸ hgd) hp
      have hnil : namesOk [] = [] := by decide
      rw [declProblems, hnames, hnil]
      exact htys
    | new hi hnew =>
      rename_i ret x gs fs
      obtain rfl := nogs hi
      obtain ⟨ps, hps, rfl⟩ := newTree_func hnew
      obtain ⟨gens, fs', hi', hsf, _⟩ := of_item hs hi
      have hpm := hg.params _ _ _ hi'
      have hpn : ps.map (·.1) = goParams fs' := by rw [params_names hps, (simplifyFields_names hsf).2]
      have h1 : namesOk (ps.map (·.1)) = [] := by rw [namesOk_nil, hpn]; exact ⟨hpm.1, hpm.2.1⟩
      have h2 : tysProblems (fileScope f) (ps.map (·.2)) = [] := by
        rw [tysProblems_nil]
        intro g hgm
        obtain ⟨p, hp, rfl⟩ := List.mem_map.1 hgm
        obtain ⟨fl, hfl, he⟩ := (allOf_mem hps).2 p hp
        simp only [Option.bind_eq_bind, Option.bind_eq_some_iff, Option.pure_def, Option.some.injEq] at he
        obtain ⟨g, hgd, rfl⟩ := he
        obtain ⟨t, het, hpl, _⟩ := (fok hi).1.plain fl hfl
        exact ty_ok hb t (het ▸ hgd) hpl
      have ht := (fok hi).2
      have h3 : tyProblems (fileScope f) (selfType x []) = [] := selfOk ht
      have h4 : tyProblems (GoRules.bind ps (fileScope f)) (selfType x []) = [] := by
        have : meaning (GoRules.bind ps (fileScope f)) x = some .type := by
          rw [bind_base (by rw [hpn]; exact hpm.2.2)]; exact ht
        simp [selfType, tyProblems, this, typeNameProblems, tysProblems]
      have h5 : exprsProblems f.decls (GoRules.bind ps (fileScope f))
          (fs.fields.map fun f => .entry (fieldName f) 0 (.id (paramName f))) = [] := by
        rw [exprsProblems_nil]
        intro e he
        obtain ⟨fl, hfl, rfl⟩ := List.mem_map.1 he
        obtain ⟨t, hm⟩ := meaning_bind (Γ := fileScope f) (ps := ps) (x := paramName fl)
          (by rw [params_names hps]; exact List.mem_map_of_mem hfl)
        simp [exprProblems, hm, demand]
      have hnil : namesOk [] = [] := by decide
      have hbt : bindTypes [] (fileScope f) = fileScope f := rfl
      simp [declProblems, hnil, h1, hbt, h2, h3, stmtsProblems, stmtProblems, exprsProblems, exprProblems, h4, h5, returnProblems,
        valueCount, demand]
    | implements x hi hx =>
      obtain rfl := nogs hi
      have ht := (fok hi).2
      simp [declProblems, tyProblems, hb.buf, isPackage, demand, tysProblems, ht, typeNameProblems]
    | encode hi hbody =>
      rename_i ret x gs fs body
      have hret : ret = "w" ∨ ret = "nil" := by cases hi <;> simp
      obtain rfl := nogs hi
      obtain ⟨hfo, ht⟩ := fok hi
      have hm : InMethod x (GoRules.bind [(n "v", .name x []), (n "w", byteSlice)] (fileScope f)) := by
        have hw : Base ((n "w", .variable byteSlice) :: fileScope f) := hb.cons (by decide) _
        refine ⟨hw.cons (y := n "v") (by decide) _, by simp only [GoRules.bind, List.map_cons, List.cons_append]; rw [meaning_cons, if_pos rfl], ?_⟩
        rw [bind_base]
        · exact ht
        · exact notLower_of (by simp; decide) hfo.notLower
      have hw : (meaning (GoRules.bind [(n "v", .name x []), (n "w", byteSlice)] (fileScope f)) (n "w")).isSome = true :=
        isSome_cons head_isSome
      have hbd := encBody_ok hfo hm hw hret hbody
      have hnil : namesOk [] = [] := by decide
      have hn2 : namesOk [n "v", n "w"] = [] := by decide
      have hbt : bindTypes [] (fileScope f) = fileScope f := rfl
      simp only [declProblems, hnil, List.map_cons, List.map_nil, hn2, selfOk ht, hbt, tysProblems, bytes_ok hb, List.append_nil,
        List.length_cons, List.length_nil, Nat.zero_add]
      exact hbd
    | decode hi hbody =>
      rename_i ret x gs fs body
      obtain rfl := nogs hi
      obtain ⟨hfo, ht⟩ := fok hi
      have hm : InMethod x (GoRules.bind [(n "v", .name x []), (n "r", byteSlice)] (fileScope f)) := by
        have hw : Base ((n "r", .variable byteSlice) :: fileScope f) := hb.cons (by decide) _
        refine ⟨hw.cons (y := n "v") (by decide) _, by simp only [GoRules.bind, List.map_cons, List.cons_append]; rw [meaning_cons, if_pos rfl], ?_⟩
        rw [bind_base]
        · exact ht
        · exact notLower_of (by simp; decide) hfo.notLower
      have hw : (meaning (GoRules.bind [(n "v", .name x []), (n "r", byteSlice)] (fileScope f)) (n "r")).isSome = true :=
        isSome_cons head_isSome
      have hbd := decBody_ok hfo ⟨hm, hw, fun _ h => nomatch h⟩ hbody
      have hnil : namesOk [] = [] := by decide
      have hn2 : namesOk [n "v", n "r"] = [] := by decide
      have hbt : bindTypes [] (fileScope f) = fileScope f := rfl
      have herr : tyProblems (fileScope f) (named "error") = [] := named_ok hb (by decide)
      simp only [declProblems, hnil, List.map_cons, List.map_nil, hn2, selfOk ht, hbt, tysProblems, bytes_ok hb, herr, List.append_nil,
        List.length_cons, List.length_nil, Nat.zero_add]
      exact hbd
    | size hi hbody =>
      obtain rfl := nogs hi
      obtain ⟨hfo, ht⟩ := fok hi
      have hbd := sizeBody_ok hfo (inm hfo.notLower ht) hbody
      have hnil : namesOk [] = [] := by decide
      have hn2 : namesOk [n "v"] = [] := by decide
      have hbt : bindTypes [] (fileScope f) = fileScope f := rfl
      have hint : tyProblems (fileScope f) (named "int") = [] := named_ok hb (by decide)
      simp only [declProblems, hnil, List.map_nil, hn2, selfOk ht, hbt, tysProblems, hint, List.append_nil,
        List.length_cons, List.length_nil, Nat.zero_add]
      exact hbd
    | «sealed» hi =>
      obtain rfl := nogs hi
      obtain ⟨_, ht⟩ := fok hi
      have hnil : namesOk [] = [] := by decide
      have hn2 : namesOk [n "v"] = [] := by decide
      simp only [declProblems, hnil, List.map_nil, hn2, selfOk ht, tysProblems, List.append_nil, stmtsProblems]
    | interface e he => simp only [declProblems]; decide
    | enum e he =>
      obtain ⟨here, h5, h6⟩ := declsOf_one hok.decls he
      simp only [declsOne, enumDecls, Option.bind_eq_bind, Option.bind_eq_some_iff, Option.pure_def, Option.some.injEq] at h5
      obtain ⟨vs, hvs, rfl⟩ := h5
      have ht := hok.type (h6 (Decl.type [] (upperCamel e.name.toList ++ n "Variant") [] (.interface (n "sealed"))) (by simp))
      have hnil : namesOk [] = [] := by decide
      rw [declProblems, hnil]
      exact selfOk ht
    | alias a ha hta =>
      obtain ⟨a', ha', _, he⟩ := of_alias hs ha
      have hnil : namesOk [] = [] := by decide
      rw [declProblems, hnil]
      exact ty_ok hb a'.target (he ▸ hta) (good_plain hg hr (.inr ⟨a', ha', rfl⟩))
    | const c hc htc =>
      rename_i gt
      obtain ⟨c', hc', hv, he⟩ := of_const hs hc
      rw [he] at htc
      have hval := (const_iff htc c.value).2 (hv ▸ hg.consts c' hc')
      rw [declProblems, hval]
      have hty : tyProblems (fileScope f) gt = [] := by
        cases hct : c'.ty with
        | prim p =>
          rw [hct, simplifyType] at htc
          have hg' : gt = primTree p := by
            cases p <;> simp only [constTree, Option.some.injEq, reduceCtorEq] at htc <;> exact htc.symm
          rw [hg'] at hval ⊢
          refine prim_ok ⟨fun hp => ?_, fun hp => ?_⟩ hb <;> rw [hp] at hval <;> cases hval
        | _ => rw [hct] at htc; simp [simplifyType, constTree] at htc
      rw [hty]; rfl
    | blank => rfl
  have huse : ∀ i ∈ f.imports, f.decls.any (declUses i.1) = true := by
    intro i hi
    rw [hok.imports, importTree] at hi
    simp only [List.mem_cons, List.not_mem_nil, or_false] at hi
    rw [List.any_eq_true]
    rcases hi with rfl | rfl
    · obtain ⟨t, ht, hu⟩ := hg.runtime
      rw [← uses_runtime] at hu
      rcases ht with ht | ⟨a, ha, rfl⟩
      · obtain ⟨ret, x, gs, gfs, fld, hi, _, hf', he⟩ := field_of hs ht
        obtain ⟨c, b, hbt, hm⟩ := (item_parts hok.decls hi).type
        simp only [structTree, Option.bind_eq_bind, Option.bind_eq_some_iff, Option.pure_def, Option.some.injEq] at hbt
        obtain ⟨gf, hall, rfl⟩ := hbt
        refine ⟨_, hm, ?_⟩
        rw [declUses]
        obtain ⟨gfld, hgf, hgd⟩ := (allOf_mem hall).1 fld hf'
        simp only [Option.bind_eq_some_iff, Option.some.injEq] at hgd
        obtain ⟨g, hgd, rfl⟩ := hgd
        have : tyUses (n "mabo") g = true := (tyUses_iff (by decide) t (he ▸ hgd)).2 hu
        have key : ∀ l : List GTy, g ∈ l → tysUse (n "mabo") l = true := by
          intro l hl
          induction l with
          | nil => cases hl
          | cons a l ih =>
            rw [tysUse]
            rcases List.mem_cons.1 hl with rfl | hl
            · rw [this]; rfl
            · rw [ih hl]; simp
        exact key _ (List.mem_map.2 ⟨_, hgf, rfl⟩)
      · obtain ⟨here, h5, h6⟩ := declsOf_one hok.decls (alias_of hs ha)
        simp only [declsOne, aliasDecls, Option.bind_eq_bind, Option.bind_eq_some_iff, Option.pure_def, Option.some.injEq] at h5
        obtain ⟨g, hgd, rfl⟩ := h5
        refine ⟨_, h6 _ List.mem_cons_self, ?_⟩
        rw [declUses]
        exact (tyUses_iff (by decide) a.target hgd).2 hu
    · obtain ⟨x, gens, fs, hi⟩ := hg.items
      obtain ⟨ret, gs, gfs, hi', _⟩ := item_of hs hi
      obtain ⟨ls, hl, hm⟩ := (item_parts hok.decls hi').enc
      simp only [encMethodTree, Option.bind_eq_bind, Option.bind_eq_some_iff, Option.pure_def, Option.some.injEq] at hl
      obtain ⟨b, hbb, rfl⟩ := hl
      exact ⟨_, hm _ List.mem_cons_self, by simp [declUses, tyUses]⟩
  have hpk : namesOk [f.package] = [] := by
    rw [namesOk_nil, hfp]
    exact ⟨by simp, fun x hx => by rw [List.mem_singleton] at hx; subst hx; exact hg.package⟩
  have hfn : namesOk (fileNames f) = [] := by
    rw [namesOk_nil, fileNames, hok.imports]
    constructor
    · rw [List.nodup_append]
      refine ⟨by decide, hok.declared_nodup, fun a ha b hb' hab => ?_⟩
      subst hab
      exact notLower_of (by decide) (hok.notLower a hb') ha
    · intro x hx
      rcases List.mem_append.1 hx with hx | hx
      · have hk : ∀ m ∈ importTree.map (·.1), m ∉ keywords := by decide
        exact hk x hx
      · exact notLower_of (by decide) (hok.notLower x hx)
  simp only [problems, List.append_eq_nil_iff, List.flatMap_eq_nil_iff, demand_nil]
  exact ⟨⟨⟨hpk, hfn⟩, huse⟩, hdecl⟩

/-- Without references and type parameters, these conditions are exactly what is needed. -/
theorem good_iff {checked : Bool} {name : String} {lines : List String} {ds : List Ast.Definition} {f : File}
    (hr : NoReferences ds) (hgen : NoGenerics ds) (h : FileTree checked name lines ds f) : problems f = [] ↔ Good name ds := by
  refine ⟨fun hp => ?_, enough hr hgen h⟩
  have hn := needed h hp
  refine ⟨hn.package, ?_, hn.runtime, hn.names, hn.fields, hn.params, hn.tuples, hn.wide, hn.keys, hn.consts⟩
  rcases needed_items h hp with hi | ⟨t, ht, path, x, args, tr, hpc, _⟩
  · exact hi
  · exact absurd hpc (hr t ht path x args tr)

end Mabo.Go
