import Verif.Compiler.ResolveLabelsPlaces
import Verif.Compiler.ResolveErrors
/-! The labels of the resolver's errors are where `Spec/ResolveLabels.lean` wants them. -/
namespace Mabo.Labels
open Mabo.Parse (Text)
open Mabo.Spanned Mabo.Spec.Diag Mabo.Spec.Labels
open Mabo.Lsp hiding Text
open Mabo.Compiler (Outcome tryForEach tryForEach_fail)

/-- The places of the tokens of the files. -/
def placesFor (files : List (String × File)) (stem : String) : List Spec.Doc.Place :=
  match files.find? (fun v => v.1 == stem) with
  | some v => placesOf v.2.source v.2.schema
  | none => []

theorem placesFor_mem {files : List (String × File)} (hn : (files.map (·.1)).Nodup) {stem : String} {f : File}
    (h : (stem, f) ∈ files) : placesFor files stem = placesOf f.source f.schema := by
  have : files.find? (fun v => v.1 == stem) = some (stem, f) := by
    induction files with
    | nil => cases h
    | cons v files ih =>
      rw [List.map_cons, List.nodup_cons] at hn
      rw [List.find?_cons]
      rcases List.mem_cons.1 h with rfl | h
      · simp
      · have : (v.1 == stem) = false := by
          refine beq_false_of_ne fun e => hn.1 ?_
          rw [e]; exact List.mem_map.2 ⟨_, h, rfl⟩
        rw [this]
        exact ih hn.2 h
  rw [placesFor, this]

/-- The modules of the files. -/
def modulesOf (files : List (String × File)) : List (String × Module) := files.map fun v => (v.1, resolveTypes v.1 v.2)

theorem find_file {files : List (String × File)} {root : String} {x : String × Module}
    (h : (modulesOf files).find? (fun s => s.1 == root) = some x) :
    ∃ f, (root, f) ∈ files ∧ x = (root, ltree root f [root] f.schema.definitions) := by
  have h1 := List.mem_of_find?_eq_some h
  have h2 := List.find?_some h
  obtain ⟨v, hv, rfl⟩ := List.mem_map.1 h1
  have h3 : v.1 = root := beq_iff_eq.1 h2
  subst h3
  exact ⟨v.2, hv, rfl⟩

theorem resolveImports_err {ms : List (String × Module)} : ∀ {is : List Import} {e : ImportError},
    resolveImports ms is = some (.error e) → ∃ i ∈ is, resolveOneImport ms i = some (.error e)
  | [], e, h => by cases h
  | i :: is, e, h => by
    rw [resolveImports] at h
    cases h1 : resolveOneImport ms i with
    | none => rw [h1] at h; cases h
    | some o =>
      rw [h1] at h
      cases o with
      | error e' => cases h; exact ⟨i, List.mem_cons_self, h1⟩
      | ok r =>
        simp only at h
        cases h2 : resolveImports ms is with
        | none => rw [h2] at h; cases h
        | some o =>
          rw [h2] at h
          cases o with
          | ok rs => cases h
          | error e' =>
            cases h
            obtain ⟨j, hj, hr⟩ := resolveImports_err h2
            exact ⟨j, List.mem_cons_of_mem _ hj, hr⟩

theorem resolveImports_mem {ms : List (String × Module)} : ∀ {is : List Import} {rs : List ResolvedImport},
    resolveImports ms is = some (.ok rs) → ∀ r ∈ rs, ∃ i ∈ is, resolveOneImport ms i = some (.ok r)
  | [], rs, h => by cases h; exact fun _ h => nomatch h
  | i :: is, rs, h => by
    rw [resolveImports] at h
    cases h1 : resolveOneImport ms i with
    | none => rw [h1] at h; cases h
    | some o =>
      rw [h1] at h
      cases o with
      | error e' => cases h
      | ok r =>
        simp only at h
        cases h2 : resolveImports ms is with
        | none => rw [h2] at h; cases h
        | some o =>
          rw [h2] at h
          cases o with
          | error _ => cases h
          | ok rs' =>
            cases h
            intro r' hr'
            rcases List.mem_cons.1 hr' with rfl | hr'
            · exact ⟨i, List.mem_cons_self, h1⟩
            · obtain ⟨j, hj, hr⟩ := resolveImports_mem h2 r' hr'
              exact ⟨j, List.mem_cons_of_mem _ hj, hr⟩

/-- The labels of an error. -/
def labelsOf (e : ResolveError) : List Label := (describe ⟨id, id⟩ e).1.2.2
/-- The related labels. -/
def relatedOf (e : ResolveError) : List (NamedSource × List Label) := (describe ⟨id, id⟩ e).2.map fun r => (r.source, r.labels)

theorem labels_style (style : Style) (e : ResolveError) : (describe style e).1.2.2 = labelsOf e := by
  cases e with
  | loc e => cases e <;> rfl
  | imp e => cases e <;> rfl
  | remote e => cases e <;> rfl

theorem related_style (style : Style) (e : ResolveError) : ((describe style e).2.map fun r => (r.source, r.labels)) = relatedOf e := by
  cases e with
  | loc e => cases e <;> rfl
  | imp e => cases e <;> rfl
  | remote e => cases e <;> rfl

section
variable {std : Parse.Std} {files : List (String × File)} (hr : Ready std files)
include hr

theorem declaredLabel {root : String} {other : File} (ho : (root, other) ∈ files) {n : Nat} {mods : List String}
    {ds : List Spanned.Definition} (hs : LScope std other n mods ds) {nm name : String} {p : List String} {d : Declaration}
    (hd : findDecl (ltree nm other p ds) name = some d) :
    DeclaredLabel std (placesFor files) root other mods name (declaredHere d.name.span) := by
  obtain ⟨_, m, h1, h2⟩ := findDecl_at (hr.parsed _ ho) hs hd
  refine ⟨m, _, h1, ?_, rfl⟩
  rw [placesFor_mem hr.names ho]
  exact h2

theorem importLabels {stem : String} {f : File} (hf : (stem, f) ∈ files) {n : Nat} {i : Spanned.Import}
    (hd : SDef std f.source f.schema n (.import i)) {e : ImportError}
    (h : resolveOneImport (modulesOf files) (importIn f.source i) = some (.error e)) :
    ImportLabels std files (placesFor files) stem f i.erase n e.erase (labelsOf (.imp e)) := by
  have hp := hr.parsed _ hf
  have hpl := placesFor_mem hr.names hf
  obtain ⟨k, segs, el, sc⟩ := i
  cases segs with
  | nil => cases h
  | cons root rest =>
    simp only [resolveOneImport, importIn, List.map_cons] at h
    have hroot := segment_at hp hd (j := 0) (v := root) rfl
    cases hx : (modulesOf files).find? (fun s => s.1 == (nameIn f.source root).value) with
    | none =>
      rw [hx] at h
      cases h
      refine .schema ⟨_, ?_, rfl⟩
      rw [hpl]; exact hroot
    | some x =>
      rw [hx] at h
      obtain ⟨other, ho, rfl⟩ := find_file hx
      simp only [Option.some.injEq, resolveImport] at h
      have hif : (if (nameIn f.source root :: rest.map (nameIn f.source)).length < 2
          then Except.ok (ltree (nameIn f.source root).value other [(nameIn f.source root).value] other.schema.definitions)
          else walk (ltree (nameIn f.source root).value other [(nameIn f.source root).value] other.schema.definitions)
            ((nameIn f.source root :: rest.map (nameIn f.source)).drop 1)) =
          walk (ltree root.value other [root.value] other.schema.definitions) (rest.map (nameIn f.source)) := by
        cases rest with
        | nil => rfl
        | cons y ys => rw [if_neg (by simp)]; rfl
      rw [hif] at h
      cases hw : walk (ltree root.value other [root.value] other.schema.definitions) (rest.map (nameIn f.source)) with
      | error x =>
        rw [hw] at h
        cases h
        obtain ⟨pre, post, h1, h2⟩ := walk_error (x := x.1) (q := x.2) hw
        have h3 : (rest.map (nameIn f.source))[pre.length]? = some x.1 := by rw [h1]; simp
        rw [List.getElem?_map] at h3
        obtain ⟨v, h4, h5⟩ := Option.map_eq_some_iff.1 h3
        have h6 := segment_at hp hd (j := pre.length + 1) (v := v) (by simpa using h4)
        refine .module ⟨_, ?_, rfl⟩
        rw [hpl, h2, ← h5]
        have e : n + 1 + (pre.length + 1) = n + 1 + ([root.value] ++ pre.map (·.value)).length := by
          simp only [List.length_append, List.length_cons, List.length_nil, List.length_map]; omega
        rw [← e]
        exact h6
      | ok m =>
        rw [hw] at h
        obtain ⟨nm', n', out, rfl, hs⟩ := walk_ok (lScope_root (hr.parsed _ ho)) hw
        cases el with
        | none => cases h
        | some el =>
          have hel := element_at hp hd (e := el) rfl
          simp only [Option.map_some] at h
          cases hfd : findDecl (ltree nm' other ([root.value] ++ (rest.map (nameIn f.source)).map (·.value)) out)
              (nameIn f.source el.2).value with
          | none =>
            rw [hfd] at h
            cases h
            refine .definition ⟨_, ?_, rfl⟩
            rw [hpl]; exact hel
          | some d =>
            rw [hfd] at h
            have hl := declaredLabel hr ho hs hfd
            have he : (Spanned.Import.erase ⟨k, root :: rest, some el, sc⟩) =
                ⟨root.value :: ([] ++ (rest.map (nameIn f.source)).map (·.value)), some (nameIn f.source el.2).value⟩ := by
              simp [Spanned.Import.erase, nameIn]
            simp only at h
            cases hk : d.kind with
            | struct g => rw [hk] at h; cases h
            | enum g => rw [hk] at h; cases h
            | alias =>
              rw [hk] at h
              cases h
              refine .kind he ho hl ⟨_, ?_, rfl⟩
              rw [hpl]; exact hel
            | const =>
              rw [hk] at h
              cases h
              refine .kind he ho hl ⟨_, ?_, rfl⟩
              rw [hpl]; exact hel

/-- What a resolved import is. -/
theorem importOk {source : Text} {i : Spanned.Import} {r : ResolvedImport}
    (h : resolveOneImport (modulesOf files) (importIn source i) = some (.ok r)) :
    ∃ root path other nm n out, (root, other) ∈ files ∧ LScope std other n path out ∧
      ((i.erase = ⟨root :: path, none⟩ ∧ r = .module (ltree nm other (root :: path) out)) ∨
       ∃ name d g, i.erase = ⟨root :: path, some name⟩ ∧ findDecl (ltree nm other (root :: path) out) name = some d ∧
        r = .type other d.name g) := by
  obtain ⟨k, segs, el, sc⟩ := i
  cases segs with
  | nil => cases h
  | cons root rest =>
    simp only [resolveOneImport, importIn, List.map_cons] at h
    cases hx : (modulesOf files).find? (fun s => s.1 == (nameIn source root).value) with
    | none => rw [hx] at h; cases h
    | some x =>
      rw [hx] at h
      obtain ⟨other, ho, rfl⟩ := find_file hx
      simp only [Option.some.injEq, resolveImport] at h
      have hif : (if (nameIn source root :: rest.map (nameIn source)).length < 2
          then Except.ok (ltree (nameIn source root).value other [(nameIn source root).value] other.schema.definitions)
          else walk (ltree (nameIn source root).value other [(nameIn source root).value] other.schema.definitions)
            ((nameIn source root :: rest.map (nameIn source)).drop 1)) =
          walk (ltree root.value other [root.value] other.schema.definitions) (rest.map (nameIn source)) := by
        cases rest with
        | nil => rfl
        | cons y ys => rw [if_neg (by simp)]; rfl
      rw [hif] at h
      cases hw : walk (ltree root.value other [root.value] other.schema.definitions) (rest.map (nameIn source)) with
      | error x => rw [hw] at h; cases h
      | ok m =>
        rw [hw] at h
        obtain ⟨nm', n', out, rfl, hs⟩ := walk_ok (lScope_root (hr.parsed _ ho)) hw
        refine ⟨root.value, _, other, nm', n', out, ho, hs, ?_⟩
        cases el with
        | none =>
          cases h
          exact .inl ⟨by simp [Spanned.Import.erase, nameIn], rfl⟩
        | some el =>
          simp only [Option.map_some] at h
          cases hfd : findDecl (ltree nm' other ([root.value] ++ (rest.map (nameIn source)).map (·.value)) out)
              (nameIn source el.2).value with
          | none => rw [hfd] at h; cases h
          | some d =>
            rw [hfd] at h
            refine .inr ⟨(nameIn source el.2).value, d, ?_⟩
            have he : (Spanned.Import.erase ⟨k, root :: rest, some el, sc⟩) =
                ⟨root.value :: ([] ++ (rest.map (nameIn source)).map (·.value)), some (nameIn source el.2).value⟩ := by
              simp [Spanned.Import.erase, nameIn]
            simp only at h
            cases hk : d.kind with
            | struct g => rw [hk] at h; cases h; exact ⟨g, he, hfd, rfl⟩
            | enum g => rw [hk] at h; cases h; exact ⟨g, he, hfd, rfl⟩
            | alias => rw [hk] at h; cases h
            | const => rw [hk] at h; cases h

theorem localLabels {stem : String} {f : File} (hf : (stem, f) ∈ files) {n : Nat} {mods : List String}
    {scope : List Spanned.Definition} (hs : LScope std f n mods scope) {nm : String} {ty : Ext} {k : Nat}
    (hu : UsedLabel (placesFor files) stem f k ty.name.value (used ty.name.span)) {le : LocalError}
    (h : resolveLocal (ltree nm f (stem :: mods) scope) ty = .err le) :
    RefLabels std files (placesFor files) stem f mods (ty.path.map (·.value)) ty.name.value k (.loc le.erase)
      (labelsOf (.loc le)) [] := by
  unfold resolveLocal at h
  cases hw : walk (ltree nm f (stem :: mods) scope) ty.path with
  | error x => rw [hw] at h; cases h; exact .module hu
  | ok m =>
    rw [hw] at h
    obtain ⟨nm', n', out, rfl, hs'⟩ := walk_ok hs hw
    simp only at h
    cases hfd : findDecl (ltree nm' f (stem :: mods ++ ty.path.map (·.value)) out) ty.name.value with
    | none => rw [hfd] at h; cases h; exact .definition hu
    | some d =>
      rw [hfd] at h
      have hl := declaredLabel hr hf hs' hfd
      simp only at h
      cases hk : d.kind with
      | struct g =>
        rw [hk] at h
        simp only at h
        split at h
        · cases h; exact .count hl hu
        · cases h
      | enum g =>
        rw [hk] at h
        simp only at h
        split at h
        · cases h; exact .count hl hu
        · cases h
      | alias => rw [hk] at h; cases h; exact .kind hl hu
      | const => rw [hk] at h; cases h; exact .kind hl hu

theorem remoteLabels {stem : String} {f : File} (hf : (stem, f) ∈ files) (hk : Resolve.Known (schemasOf files)) {n : Nat} {mods : List String}
    {scope : List Spanned.Definition} (hs : LScope std f n mods scope) {nm : String} {x : Missing} {k : Nat}
    (hu : UsedLabel (placesFor files) stem f k x.1.name.value (used x.1.name.span))
    (hl : resolveLocal (ltree nm f (stem :: mods) scope) x.1 = .err x.2) {rs : List ResolvedImport}
    (hi : resolveImports (modulesOf files) (importsOf f.source f.schema.definitions) = some (.ok rs)) {e : ResolveError}
    (h : resolveTypeRemotely rs x = .err e) :
    RefLabels std files (placesFor files) stem f mods (x.1.path.map (·.value)) x.1.name.value k e.erase
      (labelsOf e) (relatedOf e) := by
  have hloc := localLabels hr hf hs hu hl
  have hrel : relatedOf (.loc x.2) = [] := by cases x.2 <;> rfl
  have himp : ∀ r ∈ rs, ∃ i : Spanned.Import, Ast.Definition.import i.erase ∈ f.schema.erase.definitions ∧
      resolveOneImport (modulesOf files) (importIn f.source i) = some (.ok r) := by
    intro r hm
    obtain ⟨y, h1, h2⟩ := resolveImports_mem hi r hm
    obtain ⟨i, j, h3, rfl⟩ := mem_importsOf h1
    refine ⟨i, ?_, h2⟩
    have : Spanned.Definition.erase (.import i) ∈ f.schema.definitions.map Spanned.Definition.erase :=
      List.mem_map.2 ⟨_, List.mem_of_getElem? h3, rfl⟩
    simp only [Spanned.Definition.erase] at this
    exact this
  obtain ⟨⟨path, name, args⟩, le⟩ := x
  unfold resolveTypeRemotely at h
  simp only at h hu hloc hrel ⊢
  split at h
  · cases h; rw [hrel]; exact hloc
  · cases path with
    | cons y rest =>
      simp only at h
      cases hm : importedModule rs y.value with
      | none => rw [hm] at h; cases h; exact .noImport hu
      | some m =>
        rw [hm] at h
        obtain ⟨r, hrm, h'⟩ := List.exists_of_findSome?_eq_some hm
        cases r with
        | type _ _ _ => cases h'
        | module m' =>
          simp only at h'
          split at h'
          · rename_i hname
            injection h' with h'
            subst h'
            obtain ⟨i, hid, hio⟩ := himp _ hrm
            obtain ⟨root, p, other, nm', n', out, ho, hs', ⟨he, hm'⟩ | ⟨_, _, _, _, _, h3⟩⟩ := importOk hr hio
            · injection hm' with hm'
              have hlast : (root :: p).getLast? = some m'.name := by
                have h1 := oneImport_erase (modulesOf files) (importIn f.source i)
                rw [hio, importIn_erase] at h1
                have h2 := modules_of files
                rw [show (files.map fun v => (v.1, resolveTypes v.1 v.2)) = modulesOf files from rfl] at h2
                rw [h2] at h1
                obtain ⟨root', path', s', out', h3, _, _, _, h4⟩ := Resolve.resolveOneImport_module hk h1.symm
                rw [he] at h3
                injection h3 with h3 _
                rw [← h3, erase_name] at h4
                exact h4
              have hthrough : Through f.schema.erase root p name.value ((y :: rest).map (·.value)) := by
                rw [he] at hid
                exact .module hid (by rw [hlast, hname])
              simp only at h
              have hrr : (if (y :: rest).head?.map (·.value) = some m'.name then Except.ok m' else walk m' (y :: rest)) =
                  .ok m' := by rw [if_pos]; rw [hname]; rfl
              unfold resolveRemote at h
              simp only at h
              rw [hrr] at h
              simp only at h
              subst hm'
              cases hfd : findDecl (ltree nm' other (root :: p) out) name.value with
              | none => rw [hfd] at h; cases h; exact .remoteDefinition hu
              | some d =>
                rw [hfd] at h
                have hdl := declaredLabel hr ho hs' hfd
                simp only at h
                cases hkd : d.kind with
                | struct g =>
                  rw [hkd] at h
                  simp only at h
                  split at h
                  · cases h; exact .remoteCount hthrough ho hdl hu
                  · cases h; rw [hrel]; exact hloc
                | enum g =>
                  rw [hkd] at h
                  simp only at h
                  split at h
                  · cases h; exact .remoteCount hthrough ho hdl hu
                  · cases h; rw [hrel]; exact hloc
                | alias => rw [hkd] at h; cases h; exact .remoteKind hthrough ho hdl hu
                | const => rw [hkd] at h; cases h; exact .remoteKind hthrough ho hdl hu
            · cases h3
          · cases h'
    | nil =>
      simp only at h
      cases ht : importedType rs name.value with
      | none => rw [ht] at h; cases h; exact .noImport hu
      | some y =>
        obtain ⟨f', v, g⟩ := y
        rw [ht] at h
        simp only at h
        split at h
        · cases h
        · cases h
          obtain ⟨r, hrm, h'⟩ := List.exists_of_findSome?_eq_some ht
          cases r with
          | module _ => cases h'
          | type f'' v' g' =>
            simp only at h'
            split at h'
            · rename_i hname
              injection h' with h'
              cases h'
              obtain ⟨i, hid, hio⟩ := himp _ hrm
              obtain ⟨root, p, other, nm', n', out, ho, hs', ⟨_, hm'⟩ | ⟨w, d, _, he, hfd, h3⟩⟩ := importOk hr hio
              · cases hm'
              · injection h3 with h3 h4 h5
                subst h3 h4
                have hdl := declaredLabel hr ho hs' hfd
                have hw : w = name.value := by
                  rw [← hname]; exact (findDecl_at (hr.parsed _ ho) hs' hfd).1.symm
                subst hw
                rw [he] at hid
                exact .remoteCount (.type hid) ho hdl hu
            · cases h'

omit hr in
theorem resolveLocal_of {m : Module} {d : Spanned.Definition} {x : Missing} (h : x ∈ resolveDef m d) :
    resolveLocal m x.1 = .err x.2 := by
  have hty : ∀ gs t, x ∈ resolveTy m gs t → resolveLocal m x.1 = .err x.2 := by
    intro gs t h
    simp only [resolveTy, List.mem_filterMap] at h
    obtain ⟨ty', _, h⟩ := h
    split at h
    · cases h
    · cases hl : resolveLocal m ty' with
      | ok => rw [hl] at h; cases h
      | panic => rw [hl] at h; cases h
      | err e' => rw [hl] at h; cases h; exact hl
  cases d with
  | struct s =>
    simp only [resolveDef, resolveFields, List.mem_flatMap] at h
    obtain ⟨t, _, h⟩ := h
    exact hty _ _ h
  | enum en =>
    simp only [resolveDef, resolveFields, List.mem_flatMap] at h
    obtain ⟨v, _, t, _, h⟩ := h
    exact hty _ _ h
  | _ => cases h

theorem resolveOne_shows (hk : Resolve.Known (schemasOf files)) (o : Order) {stem : String} {f : File} (hf : (stem, f) ∈ files)
    {e : ResolveError} (h : resolveOne o (modulesOf files) (resolveTypes stem f) = .err e) :
    Shows std files (placesFor files) stem f e.erase (labelsOf e) (relatedOf e) := by
  have hp := hr.parsed _ hf
  have hroot := lScope_root hp
  have hm := modules_of files
  rw [show (files.map fun v => (v.1, resolveTypes v.1 v.2)) = modulesOf files from rfl] at hm
  rw [resolveOne] at h
  have himports : (resolveTypes stem f).imports = importsOf f.source f.schema.definitions := rfl
  rw [himports] at h
  have hgood : Resolve.Good f.schema.erase.definitions := hk.good (stem, f.schema.erase) (List.mem_map.2 ⟨_, hf, rfl⟩)
  cases hi : resolveImports (modulesOf files) (importsOf f.source f.schema.definitions) with
  | none => rw [hi] at h; cases h
  | some r =>
    rw [hi] at h
    cases r with
    | error ie =>
      cases h
      obtain ⟨x, h1, h2⟩ := resolveImports_err hi
      obtain ⟨i, j, h3, rfl⟩ := mem_importsOf h1
      have hd := hroot.defIn h3
      simp only [Spanned.Definition.erase] at hd
      have h4 := oneImport_erase (modulesOf files) (importIn f.source i)
      rw [h2, importIn_erase, hm] at h4
      have h5 : relatedOf (.imp ie) = [] := by cases ie <;> rfl
      rw [h5]
      exact .imp hd (Resolve.resolveOneImport_err hk h4.symm) (importLabels hr hf (sDef hroot.places h3) h2)
    | ok rs =>
      simp only at h
      obtain ⟨x, hx, hfail⟩ := tryForEach_fail (by simp) h
      rw [resolveTypes_eq] at hx
      obtain ⟨n, mods, nm, scope, i, d, hs, hi', hxd⟩ := moduleTypes_sound o f.schema.definitions 0 [] stem stem x hroot hx
      obtain ⟨k, h1, h2⟩ := mention_def hp (sDef hs.places hi') rfl hxd
      have hu : UsedLabel (placesFor files) stem f k x.1.name.value (used x.1.name.span) := by
        refine ⟨_, ?_, rfl⟩
        rw [placesFor_mem hr.names hf]; exact h2
      have hscope := scopeIn_scopeAt hs.spec
      have hgs := Resolve.good_scopeAt hscope hgood
      have hxe : Missing.erase x ∈ Resolve.resolveDef (Resolve.tree nm (stem :: mods) (scope.map Spanned.Definition.erase)) d.erase := by
        rw [← ltree_erase, ← resolveDef_erase]
        exact List.mem_map.2 ⟨x, hxd, rfl⟩
      have hment := (Resolve.mem_resolveDef hgs).1 ⟨_, hxe⟩
      have hfe := remotely_erase rs x
      rw [hfail] at hfe
      have he : Resolve.Each (Resolve.resolveOneImport ((schemasOf files).map fun v => (v.1, Resolve.resolveTypes v.1 v.2)))
          (Resolve.importsOf f.schema.erase.definitions) (rs.map ResolvedImport.erase) := by
        refine Resolve.resolveImports_ok.1 ?_
        have h4 := imports_erase (modulesOf files) (importsOf f.source f.schema.definitions)
        rw [hi, importsOf_erase, hm] at h4
        exact h4.symm
      refine .ref (hs.defIn hi') h1 (fun hres => ?_)
        (Resolve.remote_err hk he (Resolve.resolveLocal_err hgs (Resolve.mem_resolveDef_err hxe)) hfe.symm)
        (remoteLabels hr hf hk hs hu (resolveLocal_of hxd) hi hfail)
      generalize hpth : x.1.path.map (·.value) = pth at hres
      generalize hnm : x.1.name.value = nam at hres
      generalize hargs : x.1.args.map Ty.erase = ags at hres
      have hxx : (Missing.erase x).1 = (pth, nam, ags) := by rw [← hpth, ← hnm, ← hargs]; rfl
      have hxy : x.1.erase = (pth, nam, ags) := hxx
      rw [hxy] at hment
      cases hres with
      | param hp => exact hment.2 (.inl ⟨rfl, rfl, hp⟩)
      | loc h1 h2 => exact hment.2 (.inr ⟨_, h1, h2⟩)
      | imported h1 h2 h3 h4 =>
        have : Resolve.resolveTypeRemotely (rs.map ResolvedImport.erase) (Missing.erase x) = .ok :=
          (Resolve.resolveTypeRemotely_ok hk hgood he).2 (by rw [hxx]; exact ⟨rfl, _, _, _, _, h1, h2, h3, h4⟩)
        rw [this] at hfe
        cases hfe

omit hr in
theorem schemasFrom_err {o : Order} {ms : List (String × Module)} : ∀ {l : List (String × Module)} {e : Error},
    schemasFrom o ms l = .err e → ∃ m ∈ l, e.source = m.2.schema.named ∧ resolveOne o ms m.2 = .err e.cause
  | [], e, h => by cases h
  | m :: l, e, h => by
    rw [schemasFrom] at h
    cases hr : resolveOne o ms m.2 with
    | ok =>
      rw [hr] at h
      obtain ⟨m', h1, h2⟩ := schemasFrom_err (l := l) h
      exact ⟨m', List.mem_cons_of_mem _ h1, h2⟩
    | panic => rw [hr] at h; cases h
    | err c => rw [hr] at h; cases h; exact ⟨m, List.mem_cons_self, rfl, hr⟩

end

end Mabo.Labels
