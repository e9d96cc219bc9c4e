import Verif.Compiler.ResolveLabelsTypes
/-! Where the names of definitions, imports and referenced types are in the file, and what the located resolver finds. -/
namespace Mabo.Labels
open Mabo.Parse (Text)
open Mabo.Spanned Mabo.Spec.Diag Mabo.Spec.Labels
open Mabo.Spec (Item word declared definitionItems definitionsItems introduced)
open Mabo.Lsp hiding Text
open Mabo.Compiler (Outcome)

section
variable {std : Parse.Std} {f : File}

/-- A token that is a name. -/
theorem marks (h : Spanned.parseSchema std f.source = some f.schema) {n : Nat} {c : Call} {v : Spanned.Name}
    (hc : At (visitDefinitions f.schema.definitions) n [c]) (hs : c.span = v.span) (hv : NameOk v) :
    Marks f (placesOf f.source f.schema) n v.value (rangeOf f.source v.span) := by
  have hg : (visitDefinitions f.schema.definitions)[n]? = some c := by
    have := hc.get (i := 0) (by simp)
    simpa using this
  obtain ⟨a, w, b, e1, e2⟩ := allIn_schema h c (List.mem_of_getElem? hg)
  have e3 : v.span = ⟨w ++ b, b⟩ := by rw [← hs, e2]
  have e4 : w = v.value.toList := by
    have : w ++ b = v.value.toList ++ b := by
      have := hv
      rw [NameOk, e3] at this
      exact this
    exact List.append_cancel_right this
  refine ⟨⟨a, w⟩, b, ?_, by simpa using e1, e4, ?_⟩
  · rw [placesOf, List.getElem?_map, hg, Option.map_some, placeOf_span e1 e2]
  · rw [rangeOf, e3]
    have o1 : Spanned.offset f.source (w ++ b) = bytes a := by rw [e1]; exact offset_append _ _
    have o2 : Spanned.offset f.source b = bytes (a ++ w) := by
      rw [e1, ← List.append_assoc]; exact offset_append _ _
    rw [o1, o2]

/-- The definitions of a module of the file. -/
structure LScope (std : Parse.Std) (f : File) (n : Nat) (mods : List String) (ds : List Spanned.Definition) : Prop where
  places : SScope std f.source f.schema n ds
  spec : ScopeIn std f.schema.erase mods n (ds.map Spanned.Definition.erase)

theorem lScope_root (h : Spanned.parseSchema std f.source = some f.schema) : LScope std f 0 [] f.schema.definitions :=
  ⟨sScope_root h, .root⟩

theorem lScope_inner {n : Nat} {mods : List String} {ds : List Spanned.Definition} (h : LScope std f n mods ds) {i : Nat}
    {c : List Spanned.Name} {k o cl : Span} {name : Spanned.Name} {inner : List Spanned.Definition}
    (hi : ds[i]? = some (.module c k name o inner cl)) :
    LScope std f (n + (definitionsItems std ((ds.map Spanned.Definition.erase).take i)).length + c.length + 3)
      (mods ++ [name.value]) inner := by
  refine ⟨sScope_inner (sDef h.places hi), ?_⟩
  have h1 := Compiler.map_getElem? (f := Spanned.Definition.erase) hi
  simp only [Spanned.Definition.erase] at h1
  have := ScopeIn.inner h.spec h1
  simpa using this

theorem LScope.defIn {n : Nat} {mods : List String} {ds : List Spanned.Definition} (h : LScope std f n mods ds) {i : Nat}
    {d : Spanned.Definition} (hi : ds[i]? = some d) :
    DefIn std f.schema.erase mods (ds.map Spanned.Definition.erase)
      (n + (definitionsItems std ((ds.map Spanned.Definition.erase).take i)).length) d.erase :=
  ⟨n, i, h.spec, Compiler.map_getElem? hi, rfl⟩

theorem scopeIn_scopeAt {s : Ast.Schema} {mods : List String} {n : Nat} {ds : List Ast.Definition} (h : ScopeIn std s mods n ds) :
    Spec.ScopeAt s.definitions mods ds := by
  induction h with
  | root => exact .here _
  | inner _ hi ih => exact Resolve.scopeAt_snoc ih (List.mem_of_getElem? hi)

/-! ### Names of definitions -/

/-- The call of a part of a definition that is a word. -/
theorem word_at {n : Nat} {d : Spanned.Definition} (hd : SDef std f.source f.schema n d) {off : Nat} {c : Call} {v : Spanned.Name}
    {it : Item} (hc : At (visitDefinitions f.schema.definitions) (n + off) [c]) (hs : c.span = v.span)
    (hi : (definitionItems std d.erase)[off]? = some it) (ht : it.text = (· = v.value.toList)) : NameOk v := by
  have hl := hd.ok.len
  obtain ⟨k, s, r, _, e⟩ := hd.ok
  have hcov := cov_defDepth std k e
  have ho : off < (visitDefinition d).length := by rw [hl]; exact (List.getElem?_eq_some_iff.1 hi).1
  have h1 := hd.at_.get ho
  have h2 : (visitDefinitions f.schema.definitions)[n + off]? = some c := by
    have := hc.get (i := 0) (by simp)
    simpa using this
  rw [h2] at h1
  obtain ⟨w, h3, h4⟩ := cover_get hcov off c it h1.symm hi
  rw [ht] at h4
  cases h4
  rw [NameOk, ← hs]; exact h3

theorem item_name {d : Spanned.Definition} (hi : IsItem d.erase) {v : Spanned.Name} (hn : Spans.definitionName d = some v) :
    ∃ it, (definitionItems std d.erase)[nameOffset d.erase]? = some it ∧ it.text = (· = v.value.toList) := by
  have get : ∀ (c : List String) (x y : Item) (rest : List Item),
      (c.map Spec.commentItem ++ x :: y :: rest)[c.length + 1]? = some y := by
    intro c x y rest
    rw [List.getElem?_append_right (by simp)]
    simp
  cases d with
  | module c k nm o ds cl => simp only [Spanned.Definition.erase, IsItem] at hi
  | «import» i => simp only [Spanned.Definition.erase, IsItem] at hi
  | struct s => cases hn; exact ⟨_, by simp only [Spanned.Definition.erase, definitionItems, nameOffset, commentOf]; exact get _ _ _ _, rfl⟩
  | enum s => cases hn; exact ⟨_, by simp only [Spanned.Definition.erase, definitionItems, nameOffset, commentOf]; exact get _ _ _ _, rfl⟩
  | typeAlias s => cases hn; exact ⟨_, by simp only [Spanned.Definition.erase, definitionItems, nameOffset, commentOf]; exact get _ _ _ _, rfl⟩
  | const s => cases hn; exact ⟨_, by simp only [Spanned.Definition.erase, definitionItems, nameOffset, commentOf]; exact get _ _ _ _, rfl⟩

/-- Where a definition is declared. -/
theorem declared_at (h : Spanned.parseSchema std f.source = some f.schema) {n : Nat} {mods : List String}
    {ds : List Spanned.Definition} (hs : LScope std f n mods ds) {i : Nat} {d : Spanned.Definition} (hi : ds[i]? = some d)
    (hit : IsItem d.erase) {v : Spanned.Name} (hn : Spans.definitionName d = some v) :
    ∃ m, DeclaredAt std f.schema.erase mods v.value m ∧
      Marks f (placesOf f.source f.schema) m v.value (rangeOf f.source v.span) := by
  have hd := sDef hs.places hi
  obtain ⟨c, h1, h2⟩ := name_at hd hn
  obtain ⟨it, h3, h4⟩ := item_name (std := std) hit hn
  refine ⟨_, ⟨_, _, _, hs.defIn hi, hit, ?_, rfl⟩, marks h h2 h1 (word_at hd h2 h1 h3 h4)⟩
  rw [Spans.introduced_erase, hn]; rfl

/-! ### Imports -/

theorem segment_at (h : Spanned.parseSchema std f.source = some f.schema) {n : Nat} {i : Spanned.Import}
    (hd : SDef std f.source f.schema n (.import i)) {j : Nat} {v : Spanned.Name} (hj : i.segments[j]? = some v) :
    Marks f (placesOf f.source f.schema) (n + 1 + j) v.value (rangeOf f.source v.span) := by
  have hl := (List.getElem?_eq_some_iff.1 hj).1
  have h1 : At (visitDefinitions f.schema.definitions) (n + (1 + j)) [⟨v.span, "namespace", []⟩] := by
    have := hd.at_
    simp only [visitDefinition, visitImport, List.append_assoc] at this
    have h2 := this.right.left
    have e : i.segments.map (fun n : Spanned.Name => (⟨n.span, "namespace", []⟩ : Call)) =
        (i.segments.take j).map (fun n => ⟨n.span, "namespace", []⟩) ++
          ([⟨v.span, "namespace", []⟩] ++ (i.segments.drop (j + 1)).map (fun n => ⟨n.span, "namespace", []⟩)) := by
      conv => lhs; rw [split_at hj]
      simp
    rw [e] at h2
    have h3 := h2.mid
    simp only [List.length_cons, List.length_nil, List.length_map, List.length_take] at h3
    rw [Nat.min_eq_left (by omega)] at h3
    rw [← Nat.add_assoc]
    exact h3
  have h2 : (definitionItems std (Spanned.Definition.import i).erase)[1 + j]? = some (word "namespace" v.value) := by
    simp only [Spanned.Definition.erase, definitionItems, Spanned.Import.erase]
    rw [Nat.add_comm, List.getElem?_cons_succ, List.getElem?_append_left (by simpa using hl)]
    simp [hj]
  have := marks h h1 rfl (word_at hd h1 rfl h2 rfl)
  rw [Nat.add_assoc]
  exact this

theorem element_at (h : Spanned.parseSchema std f.source = some f.schema) {n : Nat} {i : Spanned.Import}
    (hd : SDef std f.source f.schema n (.import i)) {e : Span × Spanned.Name} (he : i.element = some e) :
    Marks f (placesOf f.source f.schema) (n + nameOffset (.import i.erase)) e.2.value (rangeOf f.source e.2.span) := by
  obtain ⟨k, segs, el, sc⟩ := i
  simp only at he
  subst he
  obtain ⟨c, h1, h2⟩ := name_at hd (name := e.2) rfl
  have h3 : (definitionItems std (Spanned.Definition.import ⟨k, segs, some e, sc⟩).erase)[nameOffset (Spanned.Definition.import ⟨k, segs, some e, sc⟩).erase]? =
      some (word "type" e.2.value) := by
    have e1 : nameOffset (Spanned.Definition.import ⟨k, segs, some e, sc⟩).erase = segs.length + 2 := by
      simp [nameOffset, Spanned.Definition.erase, Spanned.Import.erase]
    rw [e1]
    simp only [Spanned.Definition.erase, definitionItems, Spanned.Import.erase, Option.map_some]
    rw [List.getElem?_cons_succ, List.getElem?_append_right (by simp)]
    simp
  have := marks h h2 h1 (word_at hd h2 h1 h3 rfl)
  simpa only [Spanned.Definition.erase] using this

theorem mem_importsOf {source : Text} {x : Import} : ∀ {ds : List Spanned.Definition}, x ∈ importsOf source ds →
    ∃ (i : Spanned.Import) (j : Nat), ds[j]? = some (Spanned.Definition.import i) ∧ x = importIn source i
  | [], h => by cases h
  | d :: ds, h => by
    have ih : x ∈ importsOf source ds → ∃ (i : Spanned.Import) (j : Nat), (d :: ds)[j]? = some (Spanned.Definition.import i) ∧ x = importIn source i := by
      intro h
      obtain ⟨i, j, h1, h2⟩ := mem_importsOf h
      exact ⟨i, j + 1, by simpa using h1, h2⟩
    cases d with
    | «import» i =>
      rcases List.mem_cons.1 h with rfl | h
      · exact ⟨i, 0, rfl, rfl⟩
      · exact ih h
    | _ => exact ih h

/-! ### Modules -/

theorem mem_insertModule {m x : Module} : ∀ {ms : List Module}, x ∈ insertModule m ms → x = m ∨ x ∈ ms
  | [], h => by simpa [insertModule] using h
  | m' :: ms, h => by
    rw [insertModule] at h
    split at h
    · rcases List.mem_cons.1 h with rfl | h
      · exact .inl rfl
      · exact .inr (List.mem_cons_of_mem _ h)
    · rcases List.mem_cons.1 h with rfl | h
      · exact .inr List.mem_cons_self
      · rcases mem_insertModule h with h | h
        · exact .inl h
        · exact .inr (List.mem_cons_of_mem _ h)

theorem mem_foldModules {x : Module} : ∀ {ms acc : List Module}, x ∈ ms.foldl (fun acc m => insertModule m acc) acc → x ∈ ms ∨ x ∈ acc
  | [], _, h => .inr h
  | m :: ms, acc, h => by
    rcases mem_foldModules (ms := ms) h with h | h
    · exact .inl (List.mem_cons_of_mem _ h)
    · rcases mem_insertModule h with rfl | h
      · exact .inl List.mem_cons_self
      · exact .inr h

theorem mem_moduleTrees {p : List String} {x : Module} : ∀ {ds : List Spanned.Definition}, x ∈ moduleTrees f p ds →
    ∃ (i : Nat) (c : List Spanned.Name) (k : Span) (name : Spanned.Name) (o : Span) (inner : List Spanned.Definition) (cl : Span),
      ds[i]? = some (.module c k name o inner cl) ∧ x = ltree name.value f (p ++ [name.value]) inner
  | [], h => by simp only [moduleTrees] at h; cases h
  | d :: ds, h => by
    simp only [moduleTrees, List.mem_append] at h
    rcases h with h | h
    · cases d with
      | module c k name o inner cl =>
        simp only [moduleTree, List.mem_singleton] at h
        exact ⟨0, c, k, name, o, inner, cl, rfl, h⟩
      | _ => simp only [moduleTree] at h; cases h
    · obtain ⟨i, c, k, name, o, inner, cl, h1, h2⟩ := mem_moduleTrees h
      exact ⟨i + 1, c, k, name, o, inner, cl, by simpa using h1, h2⟩

theorem getModule_tree {nm y : String} {p : List String} {ds : List Spanned.Definition} {m : Module}
    (h : getModule (ltree nm f p ds).modules y = some m) :
    ∃ (i : Nat) (c : List Spanned.Name) (k : Span) (name : Spanned.Name) (o : Span) (inner : List Spanned.Definition) (cl : Span),
      ds[i]? = some (.module c k name o inner cl) ∧ name.value = y ∧ m = ltree y f (p ++ [y]) inner := by
  have h1 := List.mem_of_find?_eq_some h
  have h2 := List.find?_some h
  have h3 : m ∈ moduleTrees f p ds := by
    rcases mem_foldModules h1 with h | h
    · exact h
    · cases h
  obtain ⟨i, c, k, name, o, inner, cl, h4, rfl⟩ := mem_moduleTrees h3
  have h5 : name.value = y := by
    have : (ltree name.value f (p ++ [name.value]) inner).name = name.value := rfl
    rw [this] at h2
    exact beq_iff_eq.1 h2
  rw [← h5]
  exact ⟨i, c, k, name, o, inner, cl, h4, rfl, rfl⟩

theorem walk_ok : ∀ {path : List Name} {nm : String} {p mods : List String} {n : Nat} {ds : List Spanned.Definition} {m : Module},
    LScope std f n mods ds → walk (ltree nm f p ds) path = .ok m →
    ∃ nm' n' out, m = ltree nm' f (p ++ path.map (·.value)) out ∧ LScope std f n' (mods ++ path.map (·.value)) out
  | [], nm, p, mods, n, ds, m, hs, h => by
    rw [walk] at h
    cases h
    exact ⟨nm, n, ds, by simp, by simpa using hs⟩
  | y :: path, nm, p, mods, n, ds, m, hs, h => by
    rw [walk] at h
    cases hm : getModule (ltree nm f p ds).modules y.value with
    | none => rw [hm] at h; cases h
    | some m' =>
      rw [hm] at h
      obtain ⟨i, c, k, name, o, inner, cl, h1, h2, rfl⟩ := getModule_tree hm
      obtain ⟨nm', n', out, rfl, h4⟩ := walk_ok (lScope_inner hs h1) h
      refine ⟨nm', n', out, by simp, ?_⟩
      rw [h2] at h4
      simpa using h4

theorem walk_error : ∀ {path : List Name} {nm : String} {p q : List String} {ds : List Spanned.Definition} {x : Name},
    walk (ltree nm f p ds) path = .error (x, q) → ∃ pre rest, path = pre ++ x :: rest ∧ q = p ++ pre.map (·.value)
  | [], nm, p, q, ds, x, h => by rw [walk] at h; cases h
  | y :: path, nm, p, q, ds, x, h => by
    rw [walk] at h
    cases hm : getModule (ltree nm f p ds).modules y.value with
    | none =>
      rw [hm] at h
      cases h
      exact ⟨[], path, rfl, by simp [ltree, Module.path]⟩
    | some m' =>
      rw [hm] at h
      obtain ⟨i, c, k, name, o, inner, cl, h1, h2, rfl⟩ := getModule_tree hm
      obtain ⟨pre, rest, rfl, rfl⟩ := walk_error h
      exact ⟨y :: pre, rest, rfl, by simp⟩

theorem mem_typesOf {source : Text} {x : Declaration} : ∀ {ds : List Spanned.Definition}, x ∈ typesOf source ds →
    ∃ (i : Nat) (d : Spanned.Definition) (v : Spanned.Name), ds[i]? = some d ∧ IsItem d.erase ∧ Spans.definitionName d = some v ∧ x.name = nameIn source v
  | [], h => by cases h
  | d :: ds, h => by
    have ih : x ∈ typesOf source ds → ∃ (i : Nat) (d' : Spanned.Definition) (v : Spanned.Name), (d :: ds)[i]? = some d' ∧ IsItem d'.erase ∧
        Spans.definitionName d' = some v ∧ x.name = nameIn source v := by
      intro h
      obtain ⟨i, d', v, h1, h2⟩ := mem_typesOf h
      exact ⟨i + 1, d', v, by simpa using h1, h2⟩
    have item : ∀ v, IsItem d.erase → Spans.definitionName d = some v → ∀ k, x = ⟨k, nameIn source v⟩ →
        ∃ (i : Nat) (d' : Spanned.Definition) (v : Spanned.Name), (d :: ds)[i]? = some d' ∧ IsItem d'.erase ∧
        Spans.definitionName d' = some v ∧ x.name = nameIn source v := by
      intro v h1 h2 k h3
      exact ⟨0, d, v, rfl, h1, h2, by rw [h3]⟩
    cases d with
    | module => exact ih h
    | «import» => exact ih h
    | struct s =>
      rcases List.mem_cons.1 h with h | h
      · exact item s.name (by simp only [Spanned.Definition.erase, IsItem]) rfl _ h
      · exact ih h
    | enum s =>
      rcases List.mem_cons.1 h with h | h
      · exact item s.name (by simp only [Spanned.Definition.erase, IsItem]) rfl _ h
      · exact ih h
    | typeAlias s =>
      rcases List.mem_cons.1 h with h | h
      · exact item s.name (by simp only [Spanned.Definition.erase, IsItem]) rfl _ h
      · exact ih h
    | const s =>
      rcases List.mem_cons.1 h with h | h
      · exact item s.name (by simp only [Spanned.Definition.erase, IsItem]) rfl _ h
      · exact ih h

/-- Where a found declaration is. -/
theorem findDecl_at (h : Spanned.parseSchema std f.source = some f.schema) {n : Nat} {mods : List String}
    {ds : List Spanned.Definition} (hs : LScope std f n mods ds) {nm name : String} {p : List String} {d : Declaration}
    (hd : findDecl (ltree nm f p ds) name = some d) :
    d.name.value = name ∧ ∃ m, DeclaredAt std f.schema.erase mods name m ∧
      Marks f (placesOf f.source f.schema) m name d.name.span := by
  have h1 : d ∈ typesOf f.source ds := List.mem_of_find?_eq_some hd
  have h2 := List.find?_some hd
  have h2 : d.name.value = name := beq_iff_eq.1 h2
  obtain ⟨i, df, v, h3, h4, h5, h6⟩ := mem_typesOf h1
  obtain ⟨m, h7, h8⟩ := declared_at h hs h3 h4 h5
  have e : v.value = name := by rw [← h2, h6]; rfl
  rw [e] at h7 h8
  refine ⟨h2, m, h7, ?_⟩
  rw [h6]
  exact h8

/-! ### Mentioned types -/

theorem TyOk.parsed {t : Ty} (h : TyOk t) : ParsedTy t := by
  obtain ⟨_, s, r, _, h⟩ := h
  exact ⟨_, s, r, h⟩

theorem type_at {n : Nat} {fs : Spanned.Fields} (h : SFields std f.source f.schema n fs) {t : Ty} (ht : t ∈ fieldTypes fs) :
    ∃ m, TypeIn n fs.erase m t.erase ∧ At (visitDefinitions f.schema.definitions) m (visitType t) ∧ ParsedTy t := by
  cases fs with
  | named d =>
    obtain ⟨x, hx, rfl⟩ := List.mem_map.1 ht
    obtain ⟨i, hi⟩ := List.getElem?_of_mem hx
    obtain ⟨h1, h2⟩ := sNamed h hi
    have h3 := TypeIn.named (n := n) (tr := d.inner.last.isSome) (Compiler.map_getElem? (f := Spanned.NamedField.erase) hi)
    refine ⟨_, h3, ?_, TyOk.parsed h1.ty⟩
    simp only [visitNamedField, List.append_assoc] at h2
    have h4 := h2.right.right.left
    simpa [visitComment, Spanned.NamedField.erase] using h4
  | unnamed d =>
    obtain ⟨x, hx, rfl⟩ := List.mem_map.1 ht
    obtain ⟨i, hi⟩ := List.getElem?_of_mem hx
    obtain ⟨h1, h2⟩ := sUnnamed h hi
    have h3 := TypeIn.unnamed (n := n) (tr := d.inner.last.isSome) (Compiler.map_getElem? (f := Spanned.UnnamedField.erase) hi)
    refine ⟨_, h3, ?_, TyOk.parsed h1.ty⟩
    simp only [visitUnnamedField] at h2
    exact h2.left
  | unit => cases ht

/-- The type is mentioned in the definition, and its name is there. -/
def MentionAt (f : File) (n : Nat) (d : Spanned.Definition) (ty : Ext) : Prop :=
  ∃ k, MentionedAt n d.erase (ty.path.map (·.value)) ty.name.value (ty.args.map Ty.erase) k ∧
    Marks f (placesOf f.source f.schema) k ty.name.value ty.name.span

theorem mention_fields (h : Spanned.parseSchema std f.source = some f.schema) {n a : Nat} {d : Spanned.Definition} {fs : Spanned.Fields}
    (hf : SFields std f.source f.schema a fs) (hin : FieldsIn n d.erase a fs.erase) {m : Module} (hm : m.schema = f) {gs : List String}
    {x : Missing} (hx : x ∈ resolveFields m gs fs) : MentionAt f n d x.1 := by
  simp only [resolveFields, List.mem_flatMap, resolveTy, List.mem_filterMap, hm] at hx
  obtain ⟨t, ht, e, he, hx⟩ := hx
  have hxe : x.1 = e := by
    split at hx
    · cases hx
    · cases hl : resolveLocal m e with
      | ok => rw [hl] at hx; cases hx
      | panic => rw [hl] at hx; cases hx
      | err _ => rw [hl] at hx; cases hx; rfl
  subst hxe
  obtain ⟨b, h1, h2, h3⟩ := type_at hf ht
  obtain ⟨tr, k, h4, v, h5, h6, h7⟩ := ext_at f.source _ t b h3 h2 _ he
  refine ⟨_, ⟨fs.erase, a, t.erase, b, tr, k, hin, h1, h4, rfl⟩, ?_⟩
  rw [List.length_map]
  rw [h5]
  exact marks h h7 rfl h6

theorem mention_def (h : Spanned.parseSchema std f.source = some f.schema) {n : Nat} {d : Spanned.Definition}
    (hd : SDef std f.source f.schema n d) {m : Module} (hm : m.schema = f) {x : Missing} (hx : x ∈ resolveDef m d) :
    MentionAt f n d x.1 := by
  cases d with
  | struct s =>
    refine mention_fields h (sFields_struct hd) ?_ hm hx
    simp only [Spanned.Definition.erase]
    exact .struct (s := s.erase)
  | enum e =>
    simp only [resolveDef, List.mem_flatMap] at hx
    obtain ⟨v, hv, hx⟩ := hx
    obtain ⟨i, hi⟩ := List.getElem?_of_mem hv
    refine mention_fields h (sFields_variant (sVariants hd) hi) ?_ hm hx
    simp only [Spanned.Definition.erase]
    exact .variant (e := e.erase) (v := v.erase) (Compiler.map_getElem? hi)
  | _ => cases hx

/-- Everything collected from a module comes from a definition in it or below it. -/
def Collected (std : Parse.Std) (f : File) (o : Order) (ds : List Spanned.Definition) : Prop :=
  ∀ n mods nm stem x, LScope std f n mods ds → x ∈ resolveModuleTypes o (ltree nm f (stem :: mods) ds) →
    ∃ (n' : Nat) (mods' : List String) (nm' : String) (scope : List Spanned.Definition) (i : Nat) (d : Spanned.Definition), LScope std f n' mods' scope ∧ scope[i]? = some d ∧
      x ∈ resolveDef (ltree nm' f (stem :: mods') scope) d

theorem mem_resolveModules {o : Order} {y : String × List Missing} : ∀ {ms : List Module}, y ∈ resolveModules o ms →
    ∃ m ∈ ms, y.2 = resolveModuleTypes o m
  | [], h => by simp only [resolveModules] at h; cases h
  | m :: ms, h => by
    simp only [resolveModules, List.mem_cons] at h
    rcases h with rfl | h
    · exact ⟨m, List.mem_cons_self, rfl⟩
    · obtain ⟨m', h1, h2⟩ := mem_resolveModules h
      exact ⟨m', List.mem_cons_of_mem _ h1, h2⟩

theorem collected_of {o : Order} {ds : List Spanned.Definition}
    (h : ∀ d ∈ ds, ∀ c k name op inner cl, d = .module c k name op inner cl → Collected std f o inner) : Collected std f o ds := by
  intro n mods nm stem x hs hx
  have e : resolveModuleTypes o (ltree nm f (stem :: mods) ds) = ds.flatMap (resolveDef (ltree nm f (stem :: mods) ds)) ++
      (o.apply (resolveModules o (toModuleMap (moduleTrees f (stem :: mods) ds)))).flatMap (·.2) := by
    rw [ltree, resolveModuleTypes]
  rw [e, List.mem_append, List.mem_flatMap, List.mem_flatMap] at hx
  rcases hx with ⟨d, hd, hx⟩ | ⟨y, hy, hx⟩
  · obtain ⟨i, hi⟩ := List.getElem?_of_mem hd
    exact ⟨n, mods, nm, ds, i, d, hs, hi, hx⟩
  · obtain ⟨m, hm, e⟩ := mem_resolveModules ((o.perm _).mem_iff.1 hy)
    have h3 : m ∈ moduleTrees f (stem :: mods) ds := by
      rcases mem_foldModules hm with h | h
      · exact h
      · cases h
    obtain ⟨i, c, k, name, op, inner, cl, h4, rfl⟩ := mem_moduleTrees h3
    rw [e] at hx
    exact h _ (List.mem_of_getElem? h4) c k name op inner cl rfl _ _ _ stem x (lScope_inner hs h4) hx

mutual
theorem collected_def {o : Order} : ∀ (d : Spanned.Definition) (c : List Spanned.Name) (k : Span) (name : Spanned.Name) (op : Span)
    (inner : List Spanned.Definition) (cl : Span), d = .module c k name op inner cl → Collected std f o inner
  | .module _ _ _ _ ds _, _, _, _, _, _, _, e => by
    cases e
    exact collected_of (collected_defs ds)
  | .struct _, _, _, _, _, _, _, e => by cases e
  | .enum _, _, _, _, _, _, _, e => by cases e
  | .typeAlias _, _, _, _, _, _, _, e => by cases e
  | .const _, _, _, _, _, _, _, e => by cases e
  | .import _, _, _, _, _, _, _, e => by cases e
theorem collected_defs {o : Order} : ∀ (ds : List Spanned.Definition), ∀ d ∈ ds, ∀ c k name op inner cl,
    d = .module c k name op inner cl → Collected std f o inner
  | [], _, hd, _, _, _, _, _, _, _ => by cases hd
  | d :: ds, d', hd, c, k, name, op, inner, cl, e => by
    rcases List.mem_cons.1 hd with h | h
    · exact collected_def d c k name op inner cl (h ▸ e)
    · exact collected_defs ds d' h c k name op inner cl e
end

theorem moduleTypes_sound (o : Order) (ds : List Spanned.Definition) : Collected std f o ds := collected_of (collected_defs ds)

end

end Mabo.Labels
