import Verif.Compiler.ResolveLemmas
import Verif.Spec.ResolveErrors
/-! The errors of the resolver are explained by `Spec/ResolveErrors.lean`. -/
namespace Mabo.Resolve
open Mabo.Ast Mabo.Compiler Mabo.Spec

theorem walk_error : ∀ {path : List String} {n : String} {p : List String} {ds : List Definition} {x : String}
    {q : List String}, Good ds → walk (tree n p ds) path = .error (x, q) → ∃ pre, q = p ++ pre ∧ StopsAt ds path x pre
  | [], n, p, ds, x, q, _, h => by rw [walk] at h; cases h
  | y :: path, n, p, ds, x, q, hg, h => by
    rw [walk] at h
    cases hm : getModule (tree n p ds).modules y with
    | none =>
      rw [hm] at h
      cases h
      refine ⟨[], (List.append_nil _).symm, path, ds, rfl, .here ds, fun c inner hd => ?_⟩
      rw [getModule_mem hg hd] at hm
      cases hm
    | some m' =>
      rw [hm] at h
      obtain ⟨c, inner, hd, rfl⟩ := getModule_some hg hm
      obtain ⟨pre, rfl, rest, out, rfl, hs, hn⟩ := walk_error (good_inner hg hd) h
      exact ⟨y :: pre, by simp, rest, out, rfl, .enter hd hs, hn⟩

/-- Where a path leads. -/
theorem walk_tree {path : List String} {n : String} {p : List String} {ds : List Definition} {m : Module} (hg : Good ds)
    (h : walk (tree n p ds) path = .ok m) : ∃ n' out, m = tree n' (p ++ path) out ∧ ScopeAt ds path out := by
  obtain ⟨n', p', out, rfl, hs⟩ := walk_ok hg h
  obtain ⟨n'', h'⟩ := walk_scopeAt hs hg (n := n) (p := p)
  rw [h] at h'
  injection h' with h'
  exact ⟨n'', out, h', hs⟩

theorem walk_name : ∀ {path : List String} {n : String} {p : List String} {ds : List Definition} {m : Module}, Good ds →
    walk (tree n p ds) path = .ok m → (n :: path).getLast? = some m.name
  | [], n, p, ds, m, _, h => by rw [walk] at h; cases h; rfl
  | y :: path, n, p, ds, m, hg, h => by
    rw [walk] at h
    cases hm : getModule (tree n p ds).modules y with
    | none => rw [hm] at h; cases h
    | some m' =>
      rw [hm] at h
      obtain ⟨c, inner, hd, rfl⟩ := getModule_some hg hm
      rw [List.getLast?_cons_cons]
      exact walk_name (good_inner hg hd) h

theorem mem_typesOf_alias {name : String} : ∀ {ds : List Definition}, (⟨.alias, name⟩ : Declaration) ∈ typesOf ds ↔
    ∃ a, Definition.typeAlias a ∈ ds ∧ a.name = name
  | [] => by simp [typesOf]
  | d :: ds => by
    have ih := mem_typesOf_alias (name := name) (ds := ds)
    cases d with
    | typeAlias a =>
      simp only [typesOf, List.mem_cons, Declaration.mk.injEq, true_and, ih]
      constructor
      · rintro (h | ⟨a', h, e⟩)
        · exact ⟨a, .inl rfl, h.symm⟩
        · exact ⟨a', .inr h, e⟩
      · rintro ⟨a', h | h, e⟩
        · cases h; exact .inl e.symm
        · exact .inr ⟨a', h, e⟩
    | _ => simp [typesOf, ih]

theorem mem_typesOf_const {name : String} : ∀ {ds : List Definition}, (⟨.const, name⟩ : Declaration) ∈ typesOf ds ↔
    ∃ c, Definition.const c ∈ ds ∧ c.name = name
  | [] => by simp [typesOf]
  | d :: ds => by
    have ih := mem_typesOf_const (name := name) (ds := ds)
    cases d with
    | const a =>
      simp only [typesOf, List.mem_cons, Declaration.mk.injEq, true_and, ih]
      constructor
      · rintro (h | ⟨a', h, e⟩)
        · exact ⟨a, .inl rfl, h.symm⟩
        · exact ⟨a', .inr h, e⟩
      · rintro ⟨a', h | h, e⟩
        · cases h; exact .inl e.symm
        · exact .inr ⟨a', h, e⟩
    | _ => simp [typesOf, ih]

theorem findDecl_none {n : String} {p : List String} {ds : List Definition} {name : String}
    (h : findDecl (tree n p ds) name = none) : ¬ HasItem ds name := by
  have hn : ∀ k, (⟨k, name⟩ : Declaration) ∉ typesOf ds := fun k hk => by
    have := List.find?_eq_none.1 h _ hk
    simp at this
  intro hi
  cases hi with
  | type hd => rcases declares_iff.1 hd with h | h <;> exact hn _ h
  | alias a h e => exact hn _ (mem_typesOf_alias.2 ⟨a, h, e⟩)
  | const c h e => exact hn _ (mem_typesOf_const.2 ⟨c, h, e⟩)

/-- What a found declaration is. -/
theorem findDecl_kind {n : String} {p : List String} {ds : List Definition} {name : String} {d : Declaration}
    (h : findDecl (tree n p ds) name = some d) (hg : Good ds) :
    (∀ g, d.kind = .struct g ∨ d.kind = .enum g → Declares ds name g) ∧
    (d.kind = .alias → ∃ a, Definition.typeAlias a ∈ ds ∧ a.name = name) ∧
    (d.kind = .const → ∃ c, Definition.const c ∈ ds ∧ c.name = name) := by
  obtain ⟨hd, hn⟩ := (findDecl_some hg).1 h
  obtain ⟨k, nm⟩ := d
  cases hn
  refine ⟨fun g hk => declares_iff.2 ?_, fun hk => ?_, fun hk => ?_⟩
  · rcases hk with hk | hk <;> cases hk
    · exact .inl hd
    · exact .inr hd
  · cases hk; exact mem_typesOf_alias.1 hd
  · cases hk; exact mem_typesOf_const.1 hd

theorem resolveLocal_err {values : List (String × Ast.Schema)} {s : Ast.Schema} {stem : String} {n : String} {mods : List String}
    {scope : List Definition} {path : List String} {name : String} {args : List DataType} {e : LocalError}
    (hg : Good scope) (h : resolveLocal (tree n (stem :: mods) scope) (path, name, args) = .err e) :
    RefProblem values stem s mods scope path name args (.loc e) := by
  unfold resolveLocal at h
  simp only at h
  cases hw : walk (tree n (stem :: mods) scope) path with
  | error x =>
    rw [hw] at h
    cases h
    obtain ⟨pre, e, hs⟩ := walk_error (x := x.1) (q := x.2) hg hw
    rw [e]
    exact .module hs
  | ok m =>
    rw [hw] at h
    obtain ⟨n', out, rfl, hs⟩ := walk_tree hg hw
    have hgo := good_scopeAt hs hg
    simp only at h
    cases hf : findDecl (tree n' (stem :: mods ++ path) out) name with
    | none =>
      rw [hf] at h
      cases h
      exact .definition hs (findDecl_none hf)
    | some d =>
      rw [hf] at h
      obtain ⟨k1, k2, k3⟩ := findDecl_kind hf hgo
      simp only at h
      cases hk : d.kind with
      | struct g =>
        rw [hk] at h
        simp only at h
        split at h
        · cases h; exact .count hs (k1 g (.inl hk)) ‹_›
        · cases h
      | enum g =>
        rw [hk] at h
        simp only at h
        split at h
        · cases h; exact .count hs (k1 g (.inr hk)) ‹_›
        · cases h
      | alias =>
        rw [hk] at h
        cases h
        obtain ⟨a, ha, e⟩ := k2 hk
        exact .kind hs (.alias a ha e)
      | const =>
        rw [hk] at h
        cases h
        obtain ⟨a, ha, e⟩ := k3 hk
        exact .kind hs (.const a ha e)

theorem resolveImport_err {values : List (String × Ast.Schema)} {s : Ast.Schema} {root : String} {path : List String}
    {el : Option String} {e : ImportError} (hv : (root, s) ∈ values) (hg : Good s.definitions)
    (h : resolveImport (resolveTypes root s) ⟨root :: path, el⟩ = .error e) : ImportProblem values ⟨root :: path, el⟩ e := by
  have hw : (if (root :: path).length < 2 then .ok (resolveTypes root s) else walk (resolveTypes root s) ((root :: path).drop 1)) =
      walk (resolveTypes root s) path := by
    cases path with
    | nil => rfl
    | cons x xs =>
      rw [if_neg (by simp)]
      rfl
  unfold resolveImport at h
  simp only at h
  rw [hw, resolveTypes_eq] at h
  cases hx : walk (tree root [root] s.definitions) path with
  | error x =>
    rw [hx] at h
    cases h
    obtain ⟨pre, e, hs⟩ := walk_error (x := x.1) (q := x.2) hg hx
    rw [e]
    exact .module rfl hv hs
  | ok m =>
    rw [hx] at h
    obtain ⟨n', out, rfl, hs⟩ := walk_tree hg hx
    simp only at h
    cases el with
    | none => cases h
    | some name =>
      simp only at h
      cases hf : findDecl (tree n' ([root] ++ path) out) name with
      | none =>
        rw [hf] at h
        cases h
        exact .definition rfl hv hs (findDecl_none hf)
      | some d =>
        rw [hf] at h
        obtain ⟨k1, k2, k3⟩ := findDecl_kind hf (good_scopeAt hs hg)
        simp only at h
        cases hk : d.kind with
        | struct g => rw [hk] at h; cases h
        | enum g => rw [hk] at h; cases h
        | alias =>
          rw [hk] at h
          cases h
          obtain ⟨a, ha, e⟩ := k2 hk
          exact .kind rfl hv hs (.alias a ha e)
        | const =>
          rw [hk] at h
          cases h
          obtain ⟨a, ha, e⟩ := k3 hk
          exact .kind rfl hv hs (.const a ha e)

theorem resolveOneImport_err {values : List (String × Ast.Schema)} (hk : Known values) {i : Import} {e : ImportError}
    (h : resolveOneImport (values.map fun v => (v.1, resolveTypes v.1 v.2)) i = some (.error e)) : ImportProblem values i e := by
  obtain ⟨segs, el⟩ := i
  cases segs with
  | nil => cases h
  | cons root path =>
    simp only [resolveOneImport] at h
    cases hf : (values.map fun v => (v.1, resolveTypes v.1 v.2)).find? (fun x => x.1 == root) with
    | none =>
      rw [hf] at h
      cases h
      refine .schema rfl fun s hs => ?_
      rw [(find_schema hk.names).1 s hs] at hf
      cases hf
    | some x =>
      rw [hf] at h
      obtain ⟨s, hs, rfl⟩ := (find_schema hk.names).2 x hf
      simp only [Option.some.injEq] at h
      exact resolveImport_err hs (hk.good _ hs) h

theorem resolveImports_err {ms : List (String × Module)} : ∀ {is : List Import} {e : ImportError},
    resolveImports ms is = some (.error e) → ∃ i ∈ is, resolveOneImport ms i = some (.error e)
  | [], e, h => by cases h
  | i :: is, e, h => by
    rw [resolveImports] at h
    cases h1 : resolveOneImport ms i with
    | none => rw [h1] at h; cases h
    | some o =>
      rw [h1] at h
      cases o with
      | error e' => cases h; exact ⟨i, List.mem_cons_self, h1⟩
      | ok r =>
        simp only at h
        cases h2 : resolveImports ms is with
        | none => rw [h2] at h; cases h
        | some o =>
          rw [h2] at h
          cases o with
          | ok rs => cases h
          | error e' =>
            cases h
            obtain ⟨j, hj, hr⟩ := resolveImports_err h2
            exact ⟨j, List.mem_cons_of_mem _ hj, hr⟩

/-- What a module in the list of imports is. -/
theorem resolveOneImport_module {values : List (String × Ast.Schema)} (hk : Known values) {i : Import} {m : Module}
    (h : resolveOneImport (values.map fun v => (v.1, resolveTypes v.1 v.2)) i = some (.ok (.module m))) :
    ∃ root path s out, i = ⟨root :: path, none⟩ ∧ (root, s) ∈ values ∧ ScopeAt s.definitions path out ∧
      m = tree m.name (root :: path) out ∧ (root :: path).getLast? = some m.name := by
  obtain ⟨segs, el⟩ := i
  cases segs with
  | nil => cases h
  | cons root path =>
    simp only [resolveOneImport] at h
    cases hf : (values.map fun v => (v.1, resolveTypes v.1 v.2)).find? (fun x => x.1 == root) with
    | none => rw [hf] at h; cases h
    | some x =>
      rw [hf] at h
      obtain ⟨s, hs, rfl⟩ := (find_schema hk.names).2 x hf
      simp only [Option.some.injEq] at h
      obtain ⟨n', out, hsc, ⟨rfl, hm, hw⟩ | ⟨name', g', _, hm, _⟩⟩ := (resolveImport_ok (hk.good _ hs)).1 h
      · injection hm with hm
        subst hm
        exact ⟨root, path, s, out, rfl, hs, hsc, rfl, walk_name (hk.good _ hs) hw⟩
      · cases hm

theorem importedModule_some {rs : List ResolvedImport} {name : String} {m : Module} (h : importedModule rs name = some m) :
    ResolvedImport.module m ∈ rs ∧ m.name = name := by
  obtain ⟨r, hr, h'⟩ := List.exists_of_findSome?_eq_some h
  clear h
  cases r with
  | type n g' => cases h'
  | module m' =>
    simp only at h'
    split at h'
    · rename_i e; injection h' with h; subst h; exact ⟨hr, e⟩
    · cases h'

theorem importedModule_none {rs : List ResolvedImport} {name : String} (h : importedModule rs name = none) {m : Module}
    (hm : ResolvedImport.module m ∈ rs) : m.name ≠ name := by
  intro e
  have := (List.findSome?_eq_none_iff.1 h) _ hm
  simp [e] at this

theorem resolveRemote_err {values : List (String × Ast.Schema)} {s : Ast.Schema} {stem : String} {mods : List String}
    {scope : List Definition} {x : String} {rest : List String} {name : String} {args : List DataType} {root : String}
    {p : List String} {out : List Definition} {e : RemoteError} (hg : Good out) (hi : ImportsModule values s x root p out)
    (h : resolveRemote (tree x (root :: p) out) (x :: rest, name, args) = .err e) :
    RefProblem values stem s mods scope (x :: rest) name args (.remote e) := by
  unfold resolveRemote at h
  have : (if (x :: rest).head? = some (tree x (root :: p) out).name then Except.ok (tree x (root :: p) out)
      else walk (tree x (root :: p) out) (x :: rest)) = .ok (tree x (root :: p) out) := by
    rw [if_pos]; rfl
  simp only at h
  rw [this] at h
  simp only at h
  cases hf : findDecl (tree x (root :: p) out) name with
  | none =>
    rw [hf] at h
    cases h
    exact .remoteDefinition rfl hi (findDecl_none hf)
  | some d =>
    rw [hf] at h
    obtain ⟨k1, k2, k3⟩ := findDecl_kind hf hg
    simp only at h
    cases hk : d.kind with
    | struct g =>
      rw [hk] at h
      simp only at h
      split at h
      · cases h; exact .remoteCount rfl hi (k1 g (.inl hk)) ‹_›
      · cases h
    | enum g =>
      rw [hk] at h
      simp only at h
      split at h
      · cases h; exact .remoteCount rfl hi (k1 g (.inr hk)) ‹_›
      · cases h
    | alias =>
      rw [hk] at h
      cases h
      obtain ⟨a, ha, e⟩ := k2 hk
      exact .remoteKind rfl hi (.alias a ha e)
    | const =>
      rw [hk] at h
      cases h
      obtain ⟨a, ha, e⟩ := k3 hk
      exact .remoteKind rfl hi (.const a ha e)

theorem remote_err {values : List (String × Ast.Schema)} (hk : Known values) {stem : String} {s : Ast.Schema}
    {mods : List String} {scope : List Definition} {rs : List ResolvedImport}
    (he : Each (resolveOneImport (values.map fun v => (v.1, resolveTypes v.1 v.2))) (importsOf s.definitions) rs)
    {path : List String} {name : String} {args : List DataType} {le : LocalError} {e : ResolveError}
    (hl : RefProblem values stem s mods scope path name args (.loc le))
    (h : resolveTypeRemotely rs ((path, name, args), le) = .err e) :
    RefProblem values stem s mods scope path name args e := by
  unfold resolveTypeRemotely at h
  simp only at h
  split at h
  · cases h; exact hl
  · cases path with
    | cons x rest =>
      simp only at h
      cases hm : importedModule rs x with
      | none =>
        rw [hm] at h
        cases h
        refine .noModuleImport rfl fun root p out hi => ?_
        obtain ⟨h1, h2, h3, h4⟩ := hi
        obtain ⟨r, hr, hri⟩ := (each_mem he).2 _ (mem_importsOf.2 h1)
        cases r with
        | module m =>
          obtain ⟨root', p', _, _, e1, _, _, _, hlast⟩ := resolveOneImport_module hk hri
          injection e1 with e1 _
          rw [← e1, h2, Option.some.injEq] at hlast
          exact importedModule_none hm hr hlast.symm
        | type nm g =>
          obtain ⟨_, _, _, _, e1, _⟩ := resolveOneImport_type hk hri
          cases e1
      | some m =>
        rw [hm] at h
        obtain ⟨hmem, hname⟩ := importedModule_some hm
        obtain ⟨i, hii, hri⟩ := (each_mem he).1 _ hmem
        obtain ⟨root, p, s', out, rfl, hv, hs, hmt, hlast⟩ := resolveOneImport_module hk hri
        rw [hname] at hmt hlast
        have him : ImportsModule values s x root p out := ⟨mem_importsOf.1 hii, hlast, hv, hs⟩
        simp only at h
        rw [hmt] at h
        cases hr : resolveRemote (tree x (root :: p) out) (x :: rest, name, args) with
        | ok => rw [hr] at h; cases h; exact hl
        | panic => rw [hr] at h; cases h
        | err e' =>
          rw [hr] at h
          cases h
          exact resolveRemote_err (good_scopeAt hs (hk.good _ hv)) him hr
    | nil =>
      simp only at h
      cases ht : importedType rs name with
      | none =>
        rw [ht] at h
        cases h
        refine .noImport rfl fun segs hseg => ?_
        obtain ⟨r, hr, hri⟩ := (each_mem he).2 _ (mem_importsOf.2 hseg)
        cases r with
        | module m =>
          obtain ⟨_, _, _, _, e1, _⟩ := resolveOneImport_module hk hri
          cases e1
        | type nm g =>
          obtain ⟨_, _, _, _, e1, _⟩ := resolveOneImport_type hk hri
          injection e1 with _ e2
          injection e2 with e2
          subst e2
          exact importedType_none ht g hr
      | some g =>
        rw [ht] at h
        simp only at h
        split at h
        · cases h
        · cases h
          obtain ⟨i, hii, hri⟩ := (each_mem he).1 _ (importedType_some ht)
          obtain ⟨root, p, s', out, rfl, hv, hs, hd⟩ := resolveOneImport_type hk hri
          exact .importedCount rfl (mem_importsOf.1 hii) hv hs hd ‹_›

theorem mem_resolveDef_err {m : Module} {d : Definition} {ty : Ext} {e : LocalError} (h : (ty, e) ∈ resolveDef m d) :
    resolveLocal m ty = .err e := by
  have hty : ∀ gs t, (ty, e) ∈ resolveTy m gs t → resolveLocal m ty = .err e := by
    intro gs t h
    simp only [resolveTy, List.mem_filterMap] at h
    obtain ⟨ty', _, h⟩ := h
    split at h
    · cases h
    · cases hl : resolveLocal m ty' with
      | ok => rw [hl] at h; cases h
      | panic => rw [hl] at h; cases h
      | err e' =>
        rw [hl] at h
        injection h with h
        injection h with h1 h2
        subst h1; subst h2
        exact hl
  cases d with
  | struct s =>
    simp only [resolveDef, resolveFields, List.mem_flatMap] at h
    obtain ⟨t, _, h⟩ := h
    exact hty _ _ h
  | enum en =>
    simp only [resolveDef, resolveFields, List.mem_flatMap] at h
    obtain ⟨v, _, t, _, h⟩ := h
    exact hty _ _ h
  | _ => cases h

theorem resolveOne_err {order : Order} (ho : IsOrder order) {values : List (String × Ast.Schema)} (hk : Known values)
    {stem : String} {s : Ast.Schema} (hg : Good s.definitions) {e : ResolveError}
    (h : resolveOne order (values.map fun v => (v.1, resolveTypes v.1 v.2)) (resolveTypes stem s) = .err e) :
    Explains values stem s e := by
  rw [resolveOne] at h
  have hmods : (resolveTypes stem s).imports = importsOf s.definitions := rfl
  rw [hmods] at h
  cases hr : resolveImports (values.map fun v => (v.1, resolveTypes v.1 v.2)) (importsOf s.definitions) with
  | none => rw [hr] at h; cases h
  | some o =>
    rw [hr] at h
    cases o with
    | error ie =>
      cases h
      obtain ⟨i, hi, he⟩ := resolveImports_err hr
      exact .imp (mem_importsOf.1 hi) (resolveOneImport_err hk he)
    | ok rs =>
      simp only at h
      have he := resolveImports_ok.1 hr
      obtain ⟨⟨⟨path, name, args⟩, le⟩, hmem, hfail⟩ := tryForEach_fail (by simp) h
      rw [resolveTypes_eq] at hmem
      obtain ⟨mods, scope, n', hs, d, hd, hx⟩ := moduleTypes_sound ho s.definitions stem [stem] _ hg hmem
      have hgs := good_scopeAt hs hg
      have hment := (mem_resolveDef hgs).1 ⟨le, hx⟩
      refine .ref hs hd hment.1 (fun hres => ?_) (remote_err hk he (resolveLocal_err hgs (mem_resolveDef_err hx)) hfail)
      cases hres with
      | param hp => exact hment.2 (.inl ⟨rfl, rfl, hp⟩)
      | loc h1 h2 => exact hment.2 (.inr ⟨_, h1, h2⟩)
      | imported h1 h2 h3 h4 =>
        have : resolveTypeRemotely rs (([], name, args), le) = .ok :=
          (resolveTypeRemotely_ok hk hg he).2 ⟨rfl, _, _, _, _, h1, h2, h3, h4⟩
        rw [this] at hfail
        cases hfail

theorem reportFrom_some {order : Order} {ms : List (String × Module)} : ∀ {l : List (String × Module)} {x : String × ResolveError},
    reportFrom order ms l = some x → ∃ m ∈ l, x.1 = m.1 ∧ resolveOne order ms m.2 = .err x.2
  | [], x, h => by cases h
  | m :: l, x, h => by
    rw [reportFrom] at h
    cases hr : resolveOne order ms m.2 with
    | ok =>
      rw [hr] at h
      obtain ⟨m', hm, h⟩ := reportFrom_some h
      exact ⟨m', List.mem_cons_of_mem _ hm, h⟩
    | panic => rw [hr] at h; cases h
    | err e => rw [hr] at h; cases h; exact ⟨m, List.mem_cons_self, rfl, hr⟩

theorem reportFrom_iff {order : Order} {ms : List (String × Module)} {e : ResolveError} : ∀ {l : List (String × Module)},
    tryForEach (fun m => resolveOne order ms m.2) l = .err e ↔ ∃ stem, reportFrom order ms l = some (stem, e)
  | [] => by simp [tryForEach, reportFrom]
  | m :: l => by
    rw [tryForEach, reportFrom]
    cases hr : resolveOne order ms m.2 with
    | ok => exact reportFrom_iff (l := l)
    | panic => simp [Outcome.andThen]
    | err e' => simp [Outcome.andThen]

theorem resolveRemote_panic {m : Module} {ty : Ext} : resolveRemote m ty ≠ .panic := by
  intro h
  unfold resolveRemote at h
  repeat' (first | cases h | split at h)

theorem resolveTypeRemotely_panic {rs : List ResolvedImport} {x : Missing} : resolveTypeRemotely rs x ≠ .panic := by
  intro h
  obtain ⟨⟨path, name, args⟩, le⟩ := x
  unfold resolveTypeRemotely at h
  simp only at h
  split at h
  · cases h
  · cases path with
    | cons x rest =>
      simp only at h
      cases hm : importedModule rs x with
      | none => rw [hm] at h; cases h
      | some m =>
        rw [hm] at h
        simp only at h
        cases hr : resolveRemote m (x :: rest, name, args) with
        | ok => rw [hr] at h; cases h
        | err e => rw [hr] at h; cases h
        | panic => exact resolveRemote_panic hr
    | nil =>
      simp only at h
      cases ht : importedType rs name with
      | none => rw [ht] at h; cases h
      | some g =>
        rw [ht] at h
        simp only at h
        split at h <;> cases h

theorem resolveImports_none {ms : List (String × Module)} : ∀ {is : List Import}, resolveImports ms is = none →
    ∃ i ∈ is, i.segments = []
  | [], h => by cases h
  | i :: is, h => by
    rw [resolveImports] at h
    cases h1 : resolveOneImport ms i with
    | none =>
      refine ⟨i, List.mem_cons_self, ?_⟩
      obtain ⟨segs, el⟩ := i
      cases segs with
      | nil => rfl
      | cons root path =>
        simp only [resolveOneImport] at h1
        split at h1 <;> cases h1
    | some o =>
      rw [h1] at h
      cases o with
      | error e' => cases h
      | ok r =>
        simp only at h
        cases h2 : resolveImports ms is with
        | none =>
          obtain ⟨j, hj, hr⟩ := resolveImports_none h2
          exact ⟨j, List.mem_cons_of_mem _ hj, hr⟩
        | some o =>
          rw [h2] at h
          cases o <;> cases h

theorem resolveOne_panic {order : Order} {ms : List (String × Module)} {m : Module} (h : resolveOne order ms m = .panic) :
    ∃ i ∈ m.imports, i.segments = [] := by
  rw [resolveOne] at h
  cases hr : resolveImports ms m.imports with
  | none => exact resolveImports_none hr
  | some o =>
    rw [hr] at h
    cases o with
    | error e => cases h
    | ok rs =>
      obtain ⟨x, _, hx⟩ := tryForEach_fail (by simp) h
      exact absurd hx resolveTypeRemotely_panic

end Mabo.Resolve
