import Verif.Compiler.Resolve
import Verif.Spec.Resolve
import Verif.Compiler.ValidateLemmas3
/-! Lemmas about the resolver. -/
namespace Mabo.Resolve
open Mabo.Ast Mabo.Compiler Mabo.Spec

/-- The module of a scope. -/
def tree (name : String) (path : List String) (ds : List Definition) : Module :=
  .mk name path (importsOf ds) (typesOf ds) (toModuleMap (moduleTrees path ds)) ds

theorem resolveTypes_eq (name : String) (s : Ast.Schema) : resolveTypes name s = tree name [name] s.definitions := rfl

/-- Names are unique in the scope and in all scopes below it. -/
def Good (ds : List Definition) : Prop := ∀ p out, ScopeAt ds p out → (out.flatMap introduced).Nodup

theorem good_inner {ds inner : List Definition} {c : List String} {n : String} (h : Good ds)
    (hm : Definition.module c n inner ∈ ds) : Good inner := fun _ _ hs => h _ _ (.enter hm hs)

theorem scopeAt_snoc {ds mid : List Definition} {p : List String} (h : ScopeAt ds p mid) {c : List String} {n : String}
    {inner : List Definition} (hm : Definition.module c n inner ∈ mid) : ScopeAt ds (p ++ [n]) inner := by
  induction h with
  | here ds => exact .enter hm (.here _)
  | enter hm' _ ih => exact .enter hm' (ih hm)

theorem scope_scopeAt {s : Ast.Schema} {ds : List Definition} : Scope s ds ↔ ∃ p, ScopeAt s.definitions p ds := by
  constructor
  · intro h
    induction h with
    | root => exact ⟨[], .here _⟩
    | module _ hm ih => obtain ⟨p, hp⟩ := ih; exact ⟨_, scopeAt_snoc hp hm⟩
  · rintro ⟨p, h⟩
    have : ∀ {a b : List Definition} {q : List String}, ScopeAt a q b → Scope s a → Scope s b := by
      intro a b q h
      induction h with
      | here ds => exact id
      | enter hm _ ih => exact fun hs => ih (.module hs hm)
    exact this h .root

theorem good_of_names {s : Ast.Schema} (h : NamesOk s) : Good s.definitions :=
  fun p out hs => h.scopes out (scope_scopeAt.2 ⟨p, hs⟩)

/-! ### submodules -/

theorem insertModule_fresh {m : Module} : ∀ {ms : List Module}, (∀ m' ∈ ms, m'.name ≠ m.name) →
    insertModule m ms = ms ++ [m]
  | [], _ => rfl
  | m' :: ms, h => by
    rw [insertModule, if_neg (h m' (by simp)), insertModule_fresh fun x hx => h x (by simp [hx])]; rfl

theorem foldl_insert_fresh : ∀ (ms acc : List Module), ((acc ++ ms).map Module.name).Nodup →
    ms.foldl (fun acc m => insertModule m acc) acc = acc ++ ms
  | [], acc, _ => by simp
  | m :: ms, acc, h => by
    have hm : ∀ m' ∈ acc, m'.name ≠ m.name := by
      intro m' hm' he
      rw [List.map_append, List.nodup_append] at h
      exact h.2.2 _ (List.mem_map.2 ⟨m', hm', rfl⟩) _ (List.mem_map.2 ⟨m, by simp, rfl⟩) he
    rw [List.foldl_cons, insertModule_fresh hm, foldl_insert_fresh ms (acc ++ [m]) (by simpa using h)]
    simp

theorem toModuleMap_nodup {ms : List Module} (h : (ms.map Module.name).Nodup) : toModuleMap ms = ms := by
  rw [toModuleMap, foldl_insert_fresh ms [] (by simpa using h)]; rfl

theorem mem_moduleTrees {path : List String} {m : Module} : ∀ {ds : List Definition},
    m ∈ moduleTrees path ds ↔ ∃ c n inner, Definition.module c n inner ∈ ds ∧ m = tree n (path ++ [n]) inner
  | [] => by simp [moduleTrees]
  | d :: ds => by
    rw [moduleTrees, List.mem_append, mem_moduleTrees]
    cases d with
    | module c n inner =>
      have : moduleTree path (.module c n inner) = [tree n (path ++ [n]) inner] := rfl
      rw [this, List.mem_singleton]
      simp only [List.mem_cons]
      constructor
      · rintro (h | ⟨c', n', i', h, e⟩)
        · exact ⟨c, n, inner, .inl rfl, h⟩
        · exact ⟨c', n', i', .inr h, e⟩
      · rintro ⟨c', n', i', h | h, e⟩
        · cases h; exact .inl e
        · exact .inr ⟨c', n', i', h, e⟩
    | _ => simp [moduleTree]

theorem moduleTrees_names {path : List String} : ∀ {ds : List Definition},
    ((moduleTrees path ds).map Module.name).Sublist (ds.flatMap introduced)
  | [] => by simp [moduleTrees]
  | d :: ds => by
    have ih := moduleTrees_names (path := path) (ds := ds)
    rw [moduleTrees, List.map_append, List.flatMap_cons]
    refine List.Sublist.append ?_ ih
    cases d <;> simp [moduleTree, introduced, Module.name]

theorem modules_tree {n : String} {p : List String} {ds : List Definition} (h : Good ds) :
    (tree n p ds).modules = moduleTrees p ds :=
  toModuleMap_nodup ((h [] ds (.here ds)).sublist moduleTrees_names)

theorem find_nodup {α : Type} {f : α → String} {x : α} : ∀ {l : List α}, (l.map f).Nodup → x ∈ l →
    l.find? (fun y => f y == f x) = some x
  | y :: l, hn, hx => by
    rw [List.map_cons, List.nodup_cons] at hn
    rw [List.find?_cons]
    rcases List.mem_cons.1 hx with rfl | hx
    · simp
    · have : f y ≠ f x := fun e => hn.1 (e ▸ List.mem_map.2 ⟨x, hx, rfl⟩)
      rw [beq_eq_false_iff_ne.2 this]
      exact find_nodup hn.2 hx

theorem getModule_some {n : String} {p : List String} {ds : List Definition} {name : String} (h : Good ds)
    {m : Module} (hm : getModule (tree n p ds).modules name = some m) :
    ∃ c inner, Definition.module c name inner ∈ ds ∧ m = tree name (p ++ [name]) inner := by
  rw [modules_tree h] at hm
  have hmem := List.mem_of_find?_eq_some hm
  have hname := List.find?_some hm
  obtain ⟨c, n', inner, hd, rfl⟩ := mem_moduleTrees.1 hmem
  have : n' = name := by simpa [tree, Module.name] using hname
  subst this
  exact ⟨c, inner, hd, rfl⟩

theorem getModule_mem {n : String} {p : List String} {ds inner : List Definition} {name : String} {c : List String}
    (h : Good ds) (hd : Definition.module c name inner ∈ ds) :
    getModule (tree n p ds).modules name = some (tree name (p ++ [name]) inner) := by
  rw [modules_tree h]
  exact find_nodup (f := Module.name) ((h [] ds (.here ds)).sublist moduleTrees_names)
    (x := tree name (p ++ [name]) inner) (mem_moduleTrees.2 ⟨c, name, inner, hd, rfl⟩)

theorem walk_ok : ∀ {path : List String} {n : String} {p : List String} {ds : List Definition} {m : Module}, Good ds →
    walk (tree n p ds) path = .ok m → ∃ n' p' out, m = tree n' p' out ∧ ScopeAt ds path out
  | [], n, p, ds, m, _, h => by
    rw [walk] at h; cases h; exact ⟨n, p, ds, rfl, .here ds⟩
  | x :: path, n, p, ds, m, hg, h => by
    rw [walk] at h
    cases hm : getModule (tree n p ds).modules x with
    | none => rw [hm] at h; cases h
    | some m' =>
      rw [hm] at h
      obtain ⟨c, inner, hd, rfl⟩ := getModule_some hg hm
      obtain ⟨n', p', out, e, hs⟩ := walk_ok (good_inner hg hd) h
      exact ⟨n', p', out, e, .enter hd hs⟩

theorem walk_scopeAt {path : List String} {ds out : List Definition} (hs : ScopeAt ds path out) : ∀ {n : String}
    {p : List String}, Good ds → ∃ n', walk (tree n p ds) path = .ok (tree n' (p ++ path) out) := by
  induction hs with
  | here ds => intro n p _; exact ⟨n, by rw [walk, List.append_nil]⟩
  | enter hd _ ih =>
    intro n p hg
    obtain ⟨n', h⟩ := ih (good_inner hg hd) (n := _) (p := p ++ [_])
    refine ⟨n', ?_⟩
    rw [walk, getModule_mem hg hd]
    simpa using h

/-! ### declarations -/

theorem typesOf_names : ∀ {ds : List Definition}, ((typesOf ds).map (·.name)).Sublist (ds.flatMap introduced)
  | [] => by simp [typesOf]
  | d :: ds => by
    have ih := typesOf_names (ds := ds)
    rw [List.flatMap_cons]
    cases d with
    | «import» i => exact ih.trans (List.sublist_append_right _ _)
    | module c n inner => exact ih.trans (List.sublist_append_right _ _)
    | _ => simpa [typesOf, introduced] using ih

theorem mem_typesOf_struct {name : String} {g : Nat} : ∀ {ds : List Definition}, (⟨.struct g, name⟩ : Declaration) ∈ typesOf ds ↔
    ∃ s, Definition.struct s ∈ ds ∧ s.name = name ∧ s.generics.length = g
  | [] => by simp [typesOf]
  | d :: ds => by
    have ih := mem_typesOf_struct (name := name) (g := g) (ds := ds)
    cases d with
    | struct s =>
      simp only [typesOf, List.mem_cons, ih, Declaration.mk.injEq, DeclKind.struct.injEq, Definition.struct.injEq]
      constructor
      · rintro (⟨rfl, rfl⟩ | ⟨s', h, h'⟩)
        · exact ⟨s, .inl rfl, rfl, rfl⟩
        · exact ⟨s', .inr h, h'⟩
      · rintro ⟨s', rfl | h, h', h''⟩
        · exact .inl ⟨h''.symm, h'.symm⟩
        · exact .inr ⟨s', h, h', h''⟩
    | _ => simp [typesOf, ih]

theorem mem_typesOf_enum {name : String} {g : Nat} : ∀ {ds : List Definition}, (⟨.enum g, name⟩ : Declaration) ∈ typesOf ds ↔
    ∃ s, Definition.enum s ∈ ds ∧ s.name = name ∧ s.generics.length = g
  | [] => by simp [typesOf]
  | d :: ds => by
    have ih := mem_typesOf_enum (name := name) (g := g) (ds := ds)
    cases d with
    | enum s =>
      simp only [typesOf, List.mem_cons, ih, Declaration.mk.injEq, DeclKind.enum.injEq, Definition.enum.injEq]
      constructor
      · rintro (⟨rfl, rfl⟩ | ⟨s', h, h'⟩)
        · exact ⟨s, .inl rfl, rfl, rfl⟩
        · exact ⟨s', .inr h, h'⟩
      · rintro ⟨s', rfl | h, h', h''⟩
        · exact .inl ⟨h''.symm, h'.symm⟩
        · exact .inr ⟨s', h, h', h''⟩
    | _ => simp [typesOf, ih]

theorem declares_iff {ds : List Definition} {name : String} {g : Nat} :
    Declares ds name g ↔ (⟨.struct g, name⟩ : Declaration) ∈ typesOf ds ∨ (⟨.enum g, name⟩ : Declaration) ∈ typesOf ds := by
  rw [mem_typesOf_struct, mem_typesOf_enum]
  constructor
  · rintro (⟨s, h1, h2, h3⟩ | ⟨s, h1, h2, h3⟩)
    · exact .inl ⟨s, h1, h2, h3⟩
    · exact .inr ⟨s, h1, h2, h3⟩
  · rintro (⟨s, h1, h2, h3⟩ | ⟨s, h1, h2, h3⟩)
    · exact .struct s h1 h2 h3
    · exact .enum s h1 h2 h3

theorem findDecl_some {n : String} {p : List String} {ds : List Definition} {name : String} {d : Declaration}
    (h : Good ds) : findDecl (tree n p ds) name = some d ↔ d ∈ typesOf ds ∧ d.name = name := by
  constructor
  · intro hf
    exact ⟨List.mem_of_find?_eq_some hf, by simpa using List.find?_some hf⟩
  · rintro ⟨hd, rfl⟩
    exact find_nodup (f := Declaration.name) ((h [] ds (.here ds)).sublist typesOf_names) hd

/-- Looking up a struct or enum of `k` parameters. -/
theorem findDecl_declares {n : String} {p : List String} {ds : List Definition} {name : String} {k : Nat} (h : Good ds) :
    (∃ d, findDecl (tree n p ds) name = some d ∧ (d.kind = .struct k ∨ d.kind = .enum k)) ↔ Declares ds name k := by
  rw [declares_iff]
  constructor
  · rintro ⟨⟨kd, nm⟩, hf, hk⟩
    obtain ⟨hd, rfl⟩ := (findDecl_some h).1 hf
    rcases hk with rfl | rfl
    · exact .inl hd
    · exact .inr hd
  · rintro (hd | hd)
    · exact ⟨_, (findDecl_some h).2 ⟨hd, rfl⟩, .inl rfl⟩
    · exact ⟨_, (findDecl_some h).2 ⟨hd, rfl⟩, .inr rfl⟩

theorem good_scopeAt {ds out : List Definition} {q : List String} (h : ScopeAt ds q out) (hg : Good ds) : Good out := by
  induction h with
  | here => exact hg
  | enter hd _ ih => exact ih (good_inner hg hd)

/-! ### local references -/

theorem resolveLocal_ok {n : String} {p : List String} {ds : List Definition} {path : List String} {name : String}
    {args : List DataType} (h : Good ds) : resolveLocal (tree n p ds) (path, name, args) = .ok ↔
    ∃ out, ScopeAt ds path out ∧ Declares out name args.length := by
  have key : ∀ n' p' out, Good out → ((match findDecl (tree n' p' out) name with
      | none => Outcome.err (LocalError.missingDefinition name (tree n' p' out).pathToString)
      | some d =>
        match d.kind with
        | .struct g | .enum g => if g ≠ args.length then .err (.genericsCount g args.length) else .ok
        | .alias | .const => .err (.invalidKind d.kind.asStr)) = .ok ↔ Declares out name args.length) := by
    intro n' p' out hg
    rw [← findDecl_declares (n := n') (p := p') hg]
    cases hf : findDecl (tree n' p' out) name with
    | none => simp
    | some d =>
      obtain ⟨kd, nm⟩ := d
      cases kd <;> simp
  constructor
  · intro hr
    simp only [resolveLocal] at hr
    cases hw : walk (tree n p ds) path with
    | error e => rw [hw] at hr; cases hr
    | ok m =>
      rw [hw] at hr
      obtain ⟨n', p', out, rfl, hs⟩ := walk_ok h hw
      exact ⟨out, hs, (key n' p' out (good_scopeAt hs h)).1 hr⟩
  · rintro ⟨out, hs, hd⟩
    obtain ⟨n', hw⟩ := walk_scopeAt hs h (n := n) (p := p)
    simp only [resolveLocal, hw]
    exact (key n' _ out (good_scopeAt hs h)).2 hd

theorem resolveLocal_panic {m : Module} {ty : Ext} : resolveLocal m ty ≠ .panic := by
  unfold resolveLocal
  split
  · simp
  · split
    · simp
    · split
      · split <;> simp
      · split <;> simp
      · simp
      · simp

/-- Locally resolved: a type parameter or a declaration in reach. -/
def LocalOk (generics : List String) (ds : List Definition) (ty : Ext) : Prop :=
  (ty.1 = [] ∧ ty.2.2 = [] ∧ ty.2.1 ∈ generics) ∨ ∃ out, ScopeAt ds ty.1 out ∧ Declares out ty.2.1 ty.2.2.length

theorem mem_resolveTy {n : String} {p : List String} {ds : List Definition} (h : Good ds) {generics : List String}
    {t : DataType} {ty : Ext} : (∃ e, (ty, e) ∈ resolveTy (tree n p ds) generics t) ↔
      ty ∈ visitExternals t ∧ ¬ LocalOk generics ds ty := by
  obtain ⟨path, name, args⟩ := ty
  have hl := resolveLocal_ok (n := n) (p := p) (path := path) (name := name) (args := args) h
  have hgen : isGeneric (path, name, args) generics = true ↔ path = [] ∧ args = [] ∧ name ∈ generics := by
    simp only [isGeneric, Bool.and_eq_true, List.isEmpty_iff, List.contains_iff_mem]
    constructor
    · rintro ⟨⟨a, b⟩, c⟩; exact ⟨b, a, c⟩
    · rintro ⟨a, b, c⟩; exact ⟨⟨b, a⟩, c⟩
  simp only [resolveTy, List.mem_filterMap, LocalOk]
  constructor
  · rintro ⟨e, ty, hm, he⟩
    by_cases hg : isGeneric ty generics = true
    · rw [if_pos hg] at he; cases he
    · rw [if_neg hg] at he
      cases hr : resolveLocal (tree n p ds) ty with
      | err e' =>
        rw [hr] at he
        injection he with he
        cases he
        refine ⟨hm, ?_⟩
        rintro (hp | hp)
        · exact hg (hgen.2 hp)
        · rw [hl.2 hp] at hr; cases hr
      | ok => rw [hr] at he; cases he
      | panic => rw [hr] at he; cases he
  · rintro ⟨hm, hn⟩
    have hg : isGeneric (path, name, args) generics ≠ true := fun hg => hn (.inl (hgen.1 hg))
    cases hr : resolveLocal (tree n p ds) (path, name, args) with
    | ok => exact absurd (.inr (hl.1 hr)) hn
    | panic => exact absurd hr resolveLocal_panic
    | err e => exact ⟨e, _, hm, by rw [if_neg hg, hr]⟩

theorem mem_resolveDef {n : String} {p : List String} {ds : List Definition} (h : Good ds) {d : Definition} {ty : Ext} :
    (∃ e, (ty, e) ∈ resolveDef (tree n p ds) d) ↔
      Mentioned d ty.1 ty.2.1 ty.2.2 ∧ ¬ LocalOk (typeParams d) ds ty := by
  have fields : ∀ (gs : List String) (fs : Fields), (∃ e, (ty, e) ∈ resolveFields (tree n p ds) gs fs) ↔
      (∃ t tr, TypeOf fs t ∧ Part (.external ty.1 ty.2.1 ty.2.2 tr) t) ∧ ¬ LocalOk gs ds ty := by
    intro gs fs
    simp only [resolveFields, List.mem_flatMap]
    constructor
    · rintro ⟨e, t, ht, hm⟩
      have ⟨h1, h2⟩ := (mem_resolveTy h).1 ⟨e, hm⟩
      obtain ⟨tr, hp⟩ := (visitExternals_part t ty.1 ty.2.1 ty.2.2).1 h1
      exact ⟨⟨t, tr, fieldTypes_mem.1 ht, hp⟩, h2⟩
    · rintro ⟨⟨t, tr, ht, hp⟩, hn⟩
      have ⟨e, he⟩ := (mem_resolveTy (n := n) (p := p) h).2 ⟨(visitExternals_part t ty.1 ty.2.1 ty.2.2).2 ⟨tr, hp⟩, hn⟩
      exact ⟨e, t, fieldTypes_mem.2 ht, he⟩
  cases d with
  | struct s =>
    simp only [resolveDef, fields, typeParams, Mentioned]
    constructor
    · rintro ⟨⟨t, tr, h1, h2⟩, h3⟩; exact ⟨⟨_, t, tr, .struct s, h1, h2⟩, h3⟩
    · rintro ⟨⟨fs, t, tr, hf, h1, h2⟩, h3⟩; cases hf; exact ⟨⟨t, tr, h1, h2⟩, h3⟩
  | enum en =>
    simp only [resolveDef, List.mem_flatMap, typeParams, Mentioned]
    constructor
    · rintro ⟨e, v, hv, hm⟩
      have ⟨⟨t, tr, h1, h2⟩, h3⟩ := (fields _ _).1 ⟨e, hm⟩
      exact ⟨⟨_, t, tr, .variant en v hv, h1, h2⟩, h3⟩
    · rintro ⟨⟨fs, t, tr, hf, h1, h2⟩, h3⟩
      cases hf with
      | variant _ v hv =>
        have ⟨e, he⟩ := (fields en.generics v.fields).2 ⟨⟨t, tr, h1, h2⟩, h3⟩
        exact ⟨e, v, hv, he⟩
  | _ =>
    simp only [resolveDef, List.not_mem_nil, exists_false, false_iff, Mentioned]
    rintro ⟨⟨fs, t, tr, hf, _⟩, _⟩
    cases hf

/-! ### all references of a schema -/

/-- The order of a hash map is some order. -/
def IsOrder (order : Order) : Prop := ∀ l, (order l).Perm l

theorem mem_order {order : Order} (ho : IsOrder order) {l : List (String × List Missing)} {x : Missing} :
    x ∈ (order l).flatMap (·.2) ↔ ∃ m ∈ l, x ∈ m.2 := by
  simp only [List.mem_flatMap, (ho l).mem_iff]

theorem mem_resolveModules {order : Order} {x : String × List Missing} : ∀ {ms : List Module},
    x ∈ resolveModules order ms ↔ ∃ m ∈ ms, x = (m.name, resolveModuleTypes order m)
  | [] => by simp [resolveModules]
  | m :: ms => by simp [resolveModules, mem_resolveModules]

theorem mem_moduleTypes {order : Order} (ho : IsOrder order) {n : String} {p : List String} {ds : List Definition}
    (hg : Good ds) {x : Missing} : x ∈ resolveModuleTypes order (tree n p ds) ↔
      (∃ d ∈ ds, x ∈ resolveDef (tree n p ds) d) ∨
      ∃ c n' inner, Definition.module c n' inner ∈ ds ∧ x ∈ resolveModuleTypes order (tree n' (p ++ [n']) inner) := by
  have e : resolveModuleTypes order (tree n p ds) = ds.flatMap (resolveDef (tree n p ds)) ++
      (order (resolveModules order (tree n p ds).modules)).flatMap (·.2) := by
    rw [tree, resolveModuleTypes]; rfl
  rw [e, modules_tree hg, List.mem_append, List.mem_flatMap, mem_order ho]
  refine or_congr Iff.rfl ?_
  simp only [mem_resolveModules, mem_moduleTrees]
  constructor
  · rintro ⟨_, ⟨m, ⟨c, n', inner, hd, rfl⟩, rfl⟩, hx⟩
    exact ⟨c, n', inner, hd, hx⟩
  · rintro ⟨c, n', inner, hd, hx⟩
    exact ⟨_, ⟨_, ⟨c, n', inner, hd, rfl⟩, rfl⟩, hx⟩

/-- Everything collected from a scope comes from a definition in it or below it. -/
def Collected (order : Order) (ds : List Definition) : Prop :=
  ∀ n p x, Good ds → x ∈ resolveModuleTypes order (tree n p ds) →
    ∃ q scope n', ScopeAt ds q scope ∧ ∃ d ∈ scope, x ∈ resolveDef (tree n' (p ++ q) scope) d

theorem collected_of {order : Order} (ho : IsOrder order) {ds : List Definition}
    (h : ∀ d ∈ ds, ∀ c n inner, d = .module c n inner → Collected order inner) : Collected order ds := by
  intro n p x hg hx
  rcases (mem_moduleTypes ho hg).1 hx with hx | ⟨c, n', inner, hd, hx⟩
  · exact ⟨[], ds, n, .here ds, by rw [List.append_nil]; exact hx⟩
  · obtain ⟨q, scope, n'', hs, hx⟩ := h _ hd c n' inner rfl n' (p ++ [n']) x (good_inner hg hd) hx
    exact ⟨n' :: q, scope, n'', .enter hd hs, by simpa using hx⟩

mutual
theorem collected_def {order : Order} (ho : IsOrder order) : ∀ (d : Definition) (c : List String) (n : String)
    (inner : List Definition), d = .module c n inner → Collected order inner
  | .module _ _ ds, _, _, _, e => by
    cases e
    exact collected_of ho (collected_defs ho ds)
  | .struct _, _, _, _, e => by cases e
  | .enum _, _, _, _, e => by cases e
  | .typeAlias _, _, _, _, e => by cases e
  | .const _, _, _, _, e => by cases e
  | .import _, _, _, _, e => by cases e
theorem collected_defs {order : Order} (ho : IsOrder order) : ∀ (ds : List Definition), ∀ d ∈ ds, ∀ c n inner,
    d = .module c n inner → Collected order inner
  | [], _, hd, _, _, _, _ => by cases hd
  | d :: ds, d', hd, c, n, inner, e => by
    rcases List.mem_cons.1 hd with h | h
    · exact collected_def ho d c n inner (h ▸ e)
    · exact collected_defs ho ds d' h c n inner e
end

theorem moduleTypes_sound {order : Order} (ho : IsOrder order) (ds : List Definition) : Collected order ds :=
  collected_of ho (collected_defs ho ds)

theorem moduleTypes_complete {order : Order} (ho : IsOrder order) {ds scope : List Definition} {q : List String}
    (h : ScopeAt ds q scope) : ∀ {n : String} {p : List String}, Good ds →
    ∃ n', ∀ d ∈ scope, ∀ x ∈ resolveDef (tree n' (p ++ q) scope) d, x ∈ resolveModuleTypes order (tree n p ds) := by
  induction h with
  | here ds =>
    intro n p hg
    exact ⟨n, fun d hd x hx => (mem_moduleTypes ho hg).2 (.inl ⟨d, hd, by simpa using hx⟩)⟩
  | @enter ds inner out c name path hm _ ih =>
    intro n p hg
    obtain ⟨n', h⟩ := ih (good_inner hg hm) (n := name) (p := p ++ [name])
    refine ⟨n', fun d hd x hx => (mem_moduleTypes ho hg).2 (.inr ⟨c, name, inner, hm, h d hd x ?_⟩)⟩
    simpa using hx

/-- The references collected for a schema are those that have no local meaning. -/
theorem mem_missing {order : Order} (ho : IsOrder order) {s : Ast.Schema} (hg : Good s.definitions) {name : String}
    {ty : Ext} : (∃ e, (ty, e) ∈ resolveModuleTypes order (resolveTypes name s)) ↔
      ∃ scope d, Scope s scope ∧ d ∈ scope ∧ Mentioned d ty.1 ty.2.1 ty.2.2 ∧ ¬ LocalOk (typeParams d) scope ty := by
  rw [resolveTypes_eq]
  constructor
  · rintro ⟨e, h⟩
    obtain ⟨q, scope, n', hs, d, hd, hx⟩ := moduleTypes_sound ho _ _ _ _ hg h
    have := (mem_resolveDef (good_scopeAt hs hg)).1 ⟨e, hx⟩
    exact ⟨scope, d, scope_scopeAt.2 ⟨q, hs⟩, hd, this⟩
  · rintro ⟨scope, d, hs, hd, h⟩
    obtain ⟨q, hs⟩ := scope_scopeAt.1 hs
    obtain ⟨n', hc⟩ := moduleTypes_complete ho hs hg (n := name) (p := [name])
    obtain ⟨e, he⟩ := (mem_resolveDef (n := n') (p := [name] ++ q) (good_scopeAt hs hg)).2 h
    exact ⟨e, hc d hd _ he⟩

/-! ### imports -/

theorem mem_importsOf {i : Import} : ∀ {ds : List Definition}, i ∈ importsOf ds ↔ Definition.import i ∈ ds
  | [] => by simp [importsOf]
  | d :: ds => by
    have ih := mem_importsOf (i := i) (ds := ds)
    cases d <;> simp [importsOf, ih]

/-- What a resolved import stands for. -/
def ImportMeans (values : List (String × Ast.Schema)) (i : Import) : ResolvedImport → Prop
  | .module _ => i.element = none ∧ ImportOk values i
  | .type name n => ∃ schema path s out, i = ⟨schema :: path, some name⟩ ∧ (schema, s) ∈ values ∧
      ScopeAt s.definitions path out ∧ Declares out name n

theorem resolveImport_ok {n : String} {p : List String} {ds : List Definition} (hg : Good ds) {seg : String}
    {path : List String} {el : Option String} {r : ResolvedImport} :
    resolveImport (tree n p ds) ⟨seg :: path, el⟩ = .ok r ↔ ∃ n' out, ScopeAt ds path out ∧
      ((el = none ∧ r = .module (tree n' (p ++ path) out) ∧ walk (tree n p ds) path = .ok (tree n' (p ++ path) out)) ∨
        ∃ name g, el = some name ∧ r = .type name g ∧ Declares out name g) := by
  have hw : (if (seg :: path).length < 2 then .ok (tree n p ds) else walk (tree n p ds) ((seg :: path).drop 1)) =
      walk (tree n p ds) path := by
    cases path with
    | nil => rfl
    | cons a l => rw [if_neg (by simp)]; rfl
  simp only [resolveImport]
  rw [hw]
  have decl : ∀ n' p' out name, Good out → ((match findDecl (tree n' p' out) name with
      | none => .error (.missingDefinition name (tree n' p' out).pathToString)
      | some d =>
        match d.kind with
        | .alias => .error (.invalidKind "alias")
        | .const => .error (.invalidKind "const")
        | .struct g | .enum g => .ok (.type d.name g) : Except ImportError ResolvedImport) = .ok r ↔
        ∃ g, r = .type name g ∧ Declares out name g) := by
    intro n' p' out name hg
    cases hf : findDecl (tree n' p' out) name with
    | none =>
      simp only [reduceCtorEq, false_iff, not_exists, not_and]
      intro g _ hd
      obtain ⟨d, hd, _⟩ := (findDecl_declares (n := n') (p := p') hg).2 hd
      rw [hf] at hd; cases hd
    | some d =>
      have hname := ((findDecl_some hg).1 hf).2
      have hiff : ∀ g, Declares out name g ↔ (d.kind = .struct g ∨ d.kind = .enum g) := by
        intro g
        rw [← findDecl_declares (n := n') (p := p') hg, hf]
        constructor
        · rintro ⟨_, h, h'⟩; cases h; exact h'
        · intro h; exact ⟨d, rfl, h⟩
      simp only [hiff]
      obtain ⟨kd, nm⟩ := d
      subst hname
      cases kd with
      | struct g =>
        simp only [DeclKind.struct.injEq, reduceCtorEq, or_false, Except.ok.injEq]
        exact ⟨fun h => ⟨g, h.symm, rfl⟩, fun ⟨g', h, e⟩ => by subst e; exact h.symm⟩
      | enum g =>
        simp only [DeclKind.enum.injEq, reduceCtorEq, false_or, Except.ok.injEq]
        exact ⟨fun h => ⟨g, h.symm, rfl⟩, fun ⟨g', h, e⟩ => by subst e; exact h.symm⟩
      | alias => simp
      | const => simp
  constructor
  · intro h
    cases hwk : walk (tree n p ds) path with
    | error e => rw [hwk] at h; cases h
    | ok m =>
      obtain ⟨n1, p1, out, e, hs⟩ := walk_ok hg hwk
      obtain ⟨n', hw'⟩ := walk_scopeAt hs hg (n := n) (p := p)
      rw [hw', Except.ok.injEq] at hwk
      subst hwk
      rw [hw'] at h
      refine ⟨n', out, hs, ?_⟩
      cases el with
      | none =>
        injection h with h
        exact .inl ⟨rfl, h.symm, rfl⟩
      | some name =>
        obtain ⟨g, hr, hd⟩ := (decl n' _ out name (good_scopeAt hs hg)).1 h
        exact .inr ⟨name, g, rfl, hr, hd⟩
  · rintro ⟨n', out, hs, ⟨rfl, rfl, hw'⟩ | ⟨name, g, rfl, rfl, hd⟩⟩
    · rw [hw']
    · obtain ⟨n'', hw'⟩ := walk_scopeAt hs hg (n := n) (p := p)
      rw [hw']
      exact (decl n'' _ out name (good_scopeAt hs hg)).2 ⟨g, rfl, hd⟩

/-- Lookup of a schema by name. -/
theorem find_schema {values : List (String × Ast.Schema)} (hn : (values.map (·.1)).Nodup) {seg : String} :
    (∀ s, (seg, s) ∈ values → (values.map fun v => (v.1, resolveTypes v.1 v.2)).find? (fun x => x.1 == seg) =
      some (seg, resolveTypes seg s)) ∧
    (∀ x, (values.map fun v => (v.1, resolveTypes v.1 v.2)).find? (fun x => x.1 == seg) = some x →
      ∃ s, (seg, s) ∈ values ∧ x = (seg, resolveTypes seg s)) := by
  constructor
  · intro s hs
    exact find_nodup (f := fun x : String × Module => x.1) (x := (seg, resolveTypes seg s))
      (by simpa [Function.comp_def] using hn) (List.mem_map.2 ⟨_, hs, rfl⟩)
  · intro x hx
    obtain ⟨v, hv, rfl⟩ := List.mem_map.1 (List.mem_of_find?_eq_some hx)
    have := List.find?_some hx
    have : v.1 = seg := by simpa using this
    subst this
    exact ⟨v.2, hv, rfl⟩

/-- A fixed set of schemas with unique names. -/
structure Known (values : List (String × Ast.Schema)) : Prop where
  names : (values.map (·.1)).Nodup
  good : ∀ v ∈ values, Good v.2.definitions

theorem resolveOneImport_ok {values : List (String × Ast.Schema)} (hk : Known values) {i : Import} :
    (∃ r, resolveOneImport (values.map fun v => (v.1, resolveTypes v.1 v.2)) i = some (.ok r)) ↔ ImportOk values i := by
  obtain ⟨segs, el⟩ := i
  constructor
  · rintro ⟨r, h⟩
    cases segs with
    | nil => cases h
    | cons seg path =>
      simp only [resolveOneImport] at h
      cases hf : (values.map fun v => (v.1, resolveTypes v.1 v.2)).find? (fun x => x.1 == seg) with
      | none => rw [hf] at h; cases h
      | some x =>
        rw [hf] at h
        obtain ⟨s, hs, rfl⟩ := (find_schema hk.names).2 x hf
        simp only [Option.some.injEq] at h
        obtain ⟨n', out, hsc, h | ⟨name, g, rfl, _, hd⟩⟩ := (resolveImport_ok (hk.good _ hs)).1 h
        · obtain ⟨rfl, _, _⟩ := h; exact .module hs hsc
        · exact .type hs hsc hd
  · intro h
    have step : ∀ {seg : String} {path : List String} {s : Ast.Schema} {out : List Definition} {el : Option String},
        (seg, s) ∈ values → ScopeAt s.definitions path out → (∀ n', ∃ r, (el = none ∧
          r = ResolvedImport.module (tree n' ([seg] ++ path) out)) ∨
          ∃ name g, el = some name ∧ r = .type name g ∧ Declares out name g) →
        ∃ r, resolveOneImport (values.map fun v => (v.1, resolveTypes v.1 v.2)) ⟨seg :: path, el⟩ = some (.ok r) := by
      intro seg path s out el hs hsc hr
      obtain ⟨n', hw⟩ := walk_scopeAt hsc (hk.good _ hs) (n := seg) (p := [seg])
      obtain ⟨r, hr⟩ := hr n'
      refine ⟨r, ?_⟩
      simp only [resolveOneImport, (find_schema hk.names).1 s hs, Option.some.injEq]
      rw [resolveTypes_eq, resolveImport_ok (hk.good _ hs)]
      refine ⟨n', out, hsc, ?_⟩
      rcases hr with ⟨h1, h2⟩ | h
      · exact .inl ⟨h1, h2, hw⟩
      · exact .inr h
    cases h with
    | type hs hsc hd => exact step hs hsc fun _ => ⟨_, .inr ⟨_, _, rfl, rfl, hd⟩⟩
    | module hs hsc => exact step hs hsc fun n' => ⟨_, .inl ⟨rfl, rfl⟩⟩

theorem resolveOneImport_type {values : List (String × Ast.Schema)} (hk : Known values) {i : Import} {name : String}
    {g : Nat} (h : resolveOneImport (values.map fun v => (v.1, resolveTypes v.1 v.2)) i = some (.ok (.type name g))) :
    ∃ schema path s out, i = ⟨schema :: path, some name⟩ ∧ (schema, s) ∈ values ∧
      ScopeAt s.definitions path out ∧ Declares out name g := by
  obtain ⟨segs, el⟩ := i
  cases segs with
  | nil => cases h
  | cons seg path =>
    simp only [resolveOneImport] at h
    cases hf : (values.map fun v => (v.1, resolveTypes v.1 v.2)).find? (fun x => x.1 == seg) with
    | none => rw [hf] at h; cases h
    | some x =>
      rw [hf] at h
      obtain ⟨s, hs, rfl⟩ := (find_schema hk.names).2 x hf
      simp only [Option.some.injEq] at h
      obtain ⟨n', out, hsc, ⟨_, h, _⟩ | ⟨name', g', rfl, h, hd⟩⟩ := (resolveImport_ok (hk.good _ hs)).1 h
      · cases h
      · cases h; exact ⟨seg, path, s, out, rfl, hs, hsc, hd⟩

/-- The results of the imports, one by one. -/
inductive Each (f : Import → Option (Except ImportError ResolvedImport)) : List Import → List ResolvedImport → Prop where
  | nil : Each f [] []
  | cons {i : Import} {is : List Import} {r : ResolvedImport} {rs : List ResolvedImport} :
      f i = some (.ok r) → Each f is rs → Each f (i :: is) (r :: rs)

theorem resolveImports_ok {ms : List (String × Module)} : ∀ {is : List Import} {rs : List ResolvedImport},
    resolveImports ms is = some (.ok rs) ↔ Each (resolveOneImport ms) is rs
  | [], rs => by
    rw [resolveImports]
    constructor
    · intro h; injection h with h; injection h with h; subst h; exact .nil
    · intro h; cases h; rfl
  | i :: is, rs => by
    rw [resolveImports]
    cases h1 : resolveOneImport ms i with
    | none => exact ⟨fun h => (by cases h), fun h => (by cases h; simp_all)⟩
    | some o =>
      cases o with
      | error e => exact ⟨fun h => (by cases h), fun h => (by cases h; simp_all)⟩
      | ok r =>
        cases h2 : resolveImports ms is with
        | none =>
          refine ⟨fun h => (by cases h), fun h => ?_⟩
          cases h with
          | cons _ h => rw [resolveImports_ok.2 h] at h2; cases h2
        | some o =>
          cases o with
          | error e =>
            refine ⟨fun h => (by cases h), fun h => ?_⟩
            cases h with
            | cons _ h => rw [resolveImports_ok.2 h] at h2; cases h2
          | ok rs' =>
            constructor
            · intro h; injection h with h; injection h with h; subst h
              exact .cons h1 (resolveImports_ok.1 h2)
            · intro h
              cases h with
              | cons h3 h4 =>
                rw [h1] at h3; injection h3 with h3; injection h3 with h3
                rw [resolveImports_ok.2 h4] at h2; injection h2 with h2; injection h2 with h2
                subst h3; subst h2; rfl

theorem each_exists {f : Import → Option (Except ImportError ResolvedImport)} : ∀ {is : List Import},
    (∃ rs, Each f is rs) ↔ ∀ i ∈ is, ∃ r, f i = some (.ok r)
  | [] => by simp; exact ⟨[], .nil⟩
  | i :: is => by
    rw [List.forall_mem_cons, ← each_exists]
    constructor
    · rintro ⟨_, h⟩; cases h with | cons h1 h2 => exact ⟨⟨_, h1⟩, _, h2⟩
    · rintro ⟨⟨r, h1⟩, rs, h2⟩; exact ⟨_, .cons h1 h2⟩

theorem each_mem {f : Import → Option (Except ImportError ResolvedImport)} {is : List Import} {rs : List ResolvedImport}
    (h : Each f is rs) : (∀ r ∈ rs, ∃ i ∈ is, f i = some (.ok r)) ∧ (∀ i ∈ is, ∃ r ∈ rs, f i = some (.ok r)) := by
  induction h with
  | nil => simp
  | cons h1 _ ih =>
    refine ⟨fun r hr => ?_, fun i hi => ?_⟩
    · rcases List.mem_cons.1 hr with rfl | hr
      · exact ⟨_, by simp, h1⟩
      · obtain ⟨i, hi, h⟩ := ih.1 r hr; exact ⟨i, by simp [hi], h⟩
    · rcases List.mem_cons.1 hi with rfl | hi
      · exact ⟨_, by simp, h1⟩
      · obtain ⟨r, hr, h⟩ := ih.2 i hi; exact ⟨r, by simp [hr], h⟩

theorem importedType_some {rs : List ResolvedImport} {name : String} {g : Nat} (h : importedType rs name = some g) :
    ResolvedImport.type name g ∈ rs := by
  obtain ⟨r, hr, h'⟩ := List.exists_of_findSome?_eq_some h
  clear h
  cases r with
  | module m => cases h'
  | type n g' =>
    simp only at h'
    split at h'
    · rename_i e; subst e; injection h' with h; subst h; exact hr
    · cases h'

theorem importedType_none {rs : List ResolvedImport} {name : String} (h : importedType rs name = none) (g : Nat) :
    ResolvedImport.type name g ∉ rs := by
  intro hm
  have := (List.findSome?_eq_none_iff.1 h) _ hm
  simp at this

/-- A name is imported once. -/
theorem import_unique {ds : List Definition} (h : (ds.flatMap introduced).Nodup) {a b : List String} {name : String}
    (ha : Definition.import ⟨a, some name⟩ ∈ ds) (hb : Definition.import ⟨b, some name⟩ ∈ ds) : a = b := by
  induction ds with
  | nil => cases ha
  | cons d ds ih =>
    rw [List.flatMap_cons, List.nodup_append] at h
    have clash : ∀ x, Definition.import ⟨x, some name⟩ ∈ ds → d ≠ Definition.import ⟨a, some name⟩ ∧
        d ≠ Definition.import ⟨b, some name⟩ := by
      intro x hx
      have hx : name ∈ ds.flatMap introduced := List.mem_flatMap.2 ⟨_, hx, by simp [introduced]⟩
      constructor <;> rintro rfl <;> exact h.2.2 name (by simp [introduced]) name hx rfl
    rcases List.mem_cons.1 ha with ha | ha <;> rcases List.mem_cons.1 hb with hb | hb
    · rw [← ha] at hb; cases hb; rfl
    · exact absurd ha.symm (clash _ hb).1
    · exact absurd hb.symm (clash _ ha).2
    · exact ih h.2.1 ha hb

/-- Imports found by name. -/
def Imported (values : List (String × Ast.Schema)) (s : Ast.Schema) (name : String) (n : Nat) : Prop :=
  ∃ schema path s' out, Definition.import ⟨schema :: path, some name⟩ ∈ s.definitions ∧ (schema, s') ∈ values ∧
    ScopeAt s'.definitions path out ∧ Declares out name n

theorem scopeAt_unique {ds : List Definition} {path : List String} {a b : List Definition} (hg : Good ds)
    (ha : ScopeAt ds path a) (hb : ScopeAt ds path b) : a = b := by
  obtain ⟨na, ha'⟩ := walk_scopeAt ha hg (n := "") (p := [])
  obtain ⟨nb, hb'⟩ := walk_scopeAt hb hg (n := "") (p := [])
  rw [ha'] at hb'
  injection hb' with hb'
  simp only [tree, Module.mk.injEq] at hb'
  exact hb'.2.2.2.2.2

theorem declares_unique {ds : List Definition} {name : String} {a b : Nat} (hg : Good ds) (ha : Declares ds name a)
    (hb : Declares ds name b) : a = b := by
  obtain ⟨d, hd, hka⟩ := (findDecl_declares (n := "") (p := []) hg).2 ha
  obtain ⟨d', hd', hkb⟩ := (findDecl_declares (n := "") (p := []) hg).2 hb
  rw [hd] at hd'; injection hd' with e; subst e
  rcases hka with h | h <;> rcases hkb with h' | h' <;> rw [h] at h' <;> cases h' <;> rfl

theorem imported_unique {values : List (String × Ast.Schema)} (hk : Known values) {s : Ast.Schema}
    (hg : Good s.definitions) {name : String} {a b : Nat} (ha : Imported values s name a)
    (hb : Imported values s name b) : a = b := by
  obtain ⟨s1, p1, t1, o1, hi1, hv1, hs1, hd1⟩ := ha
  obtain ⟨s2, p2, t2, o2, hi2, hv2, hs2, hd2⟩ := hb
  have e := import_unique (hg [] _ (.here _)) hi1 hi2
  injection e with e1 e2
  subst e1; subst e2
  have h1 := (find_schema hk.names).1 _ hv1
  have h2 := (find_schema hk.names).1 _ hv2
  rw [h1] at h2
  injection h2 with h2
  simp only [Prod.mk.injEq, true_and, resolveTypes_eq, tree, Module.mk.injEq] at h2
  have h2 := h2.2.2.2
  have hgood := hk.good _ hv1
  simp only at hgood
  rw [← h2] at hs2
  have := scopeAt_unique hgood hs1 hs2
  subst this
  exact declares_unique (good_scopeAt hs1 hgood) hd1 hd2

theorem resolveTypeRemotely_ok {values : List (String × Ast.Schema)} (hk : Known values) {s : Ast.Schema}
    (hg : Good s.definitions) {rs : List ResolvedImport}
    (he : Each (resolveOneImport (values.map fun v => (v.1, resolveTypes v.1 v.2))) (importsOf s.definitions) rs)
    {miss : Missing} : resolveTypeRemotely rs miss = .ok ↔ miss.1.1 = [] ∧ Imported values s miss.1.2.1 miss.1.2.2.length := by
  obtain ⟨⟨path, name, args⟩, e⟩ := miss
  have himp : ∀ g, ResolvedImport.type name g ∈ rs → Imported values s name g := by
    intro g hm
    obtain ⟨i, hi, h⟩ := (each_mem he).1 _ hm
    obtain ⟨sc, p, s', out, rfl, h1, h2, h3⟩ := resolveOneImport_type hk h
    exact ⟨sc, p, s', out, mem_importsOf.1 hi, h1, h2, h3⟩
  have hmem : ∀ g, Imported values s name g → ResolvedImport.type name g ∈ rs := by
    rintro g ⟨sc, p, s', out, hi, h1, h2, h3⟩
    obtain ⟨r, hr, h⟩ := (each_mem he).2 _ (mem_importsOf.2 hi)
    simp only [resolveOneImport, (find_schema hk.names).1 _ h1, Option.some.injEq] at h
    rw [resolveTypes_eq, resolveImport_ok (hk.good _ h1)] at h
    obtain ⟨n', out', hs', ⟨h, _⟩ | ⟨name', g', h, rfl, hd⟩⟩ := h
    · cases h
    · cases h
      have := scopeAt_unique (hk.good _ h1) h2 hs'
      subst this
      have := declares_unique (good_scopeAt h2 (hk.good _ h1)) h3 hd
      subst this
      exact hr
  simp only [resolveTypeRemotely]
  cases rs with
  | nil =>
    simp only [List.isEmpty_nil, if_true, reduceCtorEq, false_iff, not_and]
    intro _ h
    have := hmem _ h
    cases this
  | cons r0 rs0 =>
    simp only [List.isEmpty_cons, Bool.false_eq_true, if_false]
    cases path with
    | cons x xs =>
      simp only [reduceCtorEq, false_and, iff_false]
      cases importedModule (r0 :: rs0) x with
      | none => simp
      | some m => simp only [andThen_ok, reduceCtorEq, and_false, not_false_eq_true]
    | nil =>
      simp only [true_and]
      cases hf : importedType (r0 :: rs0) name with
      | none =>
        simp only [reduceCtorEq, false_iff]
        exact fun h => importedType_none hf _ (hmem _ h)
      | some g =>
        have hg' := himp g (importedType_some hf)
        simp only
        constructor
        · intro h
          split at h
          · subst_vars; exact hg'
          · cases h
        · intro h
          rw [if_pos (imported_unique hk hg hg' h)]

theorem resolveOne_ok {order : Order} (ho : IsOrder order) {values : List (String × Ast.Schema)} (hk : Known values)
    {name : String} {s : Ast.Schema} (hg : Good s.definitions) :
    resolveOne order (values.map fun v => (v.1, resolveTypes v.1 v.2)) (resolveTypes name s) = .ok ↔
      ImportsOk values s ∧ TypesResolve values s := by
  have himp : (∃ rs, Each (resolveOneImport (values.map fun v => (v.1, resolveTypes v.1 v.2)))
      (importsOf s.definitions) rs) ↔ ImportsOk values s := by
    rw [each_exists]
    simp only [resolveOneImport_ok hk, mem_importsOf, ImportsOk]
  have hmods : (resolveTypes name s).imports = importsOf s.definitions := rfl
  have htypes : ∀ rs, Each (resolveOneImport (values.map fun v => (v.1, resolveTypes v.1 v.2))) (importsOf s.definitions) rs →
      (tryForEach (resolveTypeRemotely rs) (resolveModuleTypes order (resolveTypes name s)) = .ok ↔ TypesResolve values s) := by
    intro rs he
    rw [tryForEach_ok]
    constructor
    · intro h scope d path nm args hs hd hm
      by_cases hl : LocalOk (typeParams d) scope (path, nm, args)
      · rcases hl with ⟨h1, h2, h3⟩ | ⟨out, h1, h2⟩
        · simp only at h1 h2 h3
          subst h1; subst h2; exact .param h3
        · exact .loc h1 h2
      · obtain ⟨e, hmem⟩ := (mem_missing ho hg (name := name) (ty := (path, nm, args))).2 ⟨scope, d, hs, hd, hm, hl⟩
        have ⟨h1, sc, p, s', out, h2, h3, h4, h5⟩ := (resolveTypeRemotely_ok hk hg he).1 (h _ hmem)
        simp only at h1
        subst h1
        exact .imported h2 h3 h4 h5
    · rintro h ⟨⟨path, nm, args⟩, e⟩ hmem
      obtain ⟨scope, d, hs, hd, hm, hl⟩ := (mem_missing ho hg).1 ⟨e, hmem⟩
      rw [resolveTypeRemotely_ok hk hg he]
      cases h scope d path nm args hs hd hm with
      | param h => exact absurd (.inl ⟨rfl, rfl, h⟩) hl
      | loc h1 h2 => exact absurd (.inr ⟨_, h1, h2⟩) hl
      | imported h1 h2 h3 h4 => exact ⟨rfl, _, _, _, _, h1, h2, h3, h4⟩
  rw [resolveOne, hmods]
  constructor
  · intro h
    cases hr : resolveImports (values.map fun v => (v.1, resolveTypes v.1 v.2)) (importsOf s.definitions) with
    | none => rw [hr] at h; cases h
    | some o =>
      cases o with
      | error e => rw [hr] at h; cases h
      | ok rs =>
        rw [hr] at h
        have he := resolveImports_ok.1 hr
        exact ⟨himp.1 ⟨rs, he⟩, (htypes rs he).1 h⟩
  · rintro ⟨h1, h2⟩
    obtain ⟨rs, he⟩ := himp.2 h1
    rw [resolveImports_ok.2 he]
    exact (htypes rs he).2 h2

theorem resolveSchemas_ok {order : Order} (ho : IsOrder order) {values : List (String × Ast.Schema)}
    (hk : Known values) : resolveSchemas order values = .ok ↔
      ∀ v ∈ values, ImportsOk values v.2 ∧ TypesResolve values v.2 := by
  simp only [resolveSchemas, tryForEach_ok]
  constructor
  · intro h v hv
    exact (resolveOne_ok ho hk (hk.good v hv)).1 (h _ (List.mem_map.2 ⟨v, hv, rfl⟩))
  · intro h m hm
    obtain ⟨v, hv, rfl⟩ := List.mem_map.1 hm
    exact (resolveOne_ok ho hk (hk.good v hv)).2 (h v hv)

end Mabo.Resolve
