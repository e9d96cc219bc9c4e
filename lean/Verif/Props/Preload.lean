import Verif.Lsp.PreloadServer
import Verif.Props.Cli
/-!
C84: the projects of a workspace and the documents that the language server knows from the beginning.

Vocabulary: `w` is the outside (disk, walks, glob patterns, project files), `folders` are the URIs of the workspace's folders,
`content st u` is the text of a document as the server answers requests.
-/
namespace Mabo.Props
open Mabo.Lsp Mabo.Preload
open Mabo.Cli (Path Host Disk)

/-- There is a project file in the directory, and the walk below `base` finds it. -/
def ProjectIn (w : Workspace) (base d : Path) : Prop := some (d ++ ["Mabo.toml".toList], true) ∈ w.search base

/-- A file of a project in a folder. -/
def Found (w : Workspace) (folders : List Text) (p : Path) : Prop :=
  ∃ u ∈ folders, ∃ projects, discover w (components (uriPath u)) = some projects ∧ ∃ pr ∈ projects, p ∈ pr.files

/-- C84, the search for projects: it succeeds exactly if each project that is found can be loaded, and then the result is each of
them, in the order of the walk, with the files that loading it alone gives (C70). -/
theorem C84_discover (w : Workspace) (base : Path) :
    ((∃ projects, discover w base = some projects) ↔ ∀ d, ProjectIn w base d → ∃ files, Cli.load w.host d = some files) ∧
    ∀ projects, discover w base = some projects →
      (∀ d files, ⟨d, files⟩ ∈ projects ↔ ProjectIn w base d ∧ Cli.load w.host d = some files) ∧
      List.Sublist (projects.map fun p => some (p.dir ++ ["Mabo.toml".toList], true)) (w.search base) := by
  have hdir : ∀ d, d ∈ (w.search base).filterMap projectDir ↔ ProjectIn w base d := fun d => by
    simp only [List.mem_filterMap, projectDir_some, ProjectIn]
    exact ⟨fun ⟨_, h, e⟩ => e ▸ h, fun h => ⟨_, h, rfl⟩⟩
  refine ⟨⟨fun ⟨ps, hp⟩ d hd => ?_, fun h => loadProjects_isSome fun d hd => h d ((hdir d).1 hd)⟩, fun ps hp => ⟨fun d fs => ?_, ?_⟩⟩
  · obtain ⟨h1, h2⟩ := loadProjects_some hp
    rw [← hdir, ← h1] at hd
    obtain ⟨p, hpm, rfl⟩ := List.mem_map.1 hd
    exact ⟨_, h2 p hpm⟩
  · obtain ⟨h1, h2⟩ := loadProjects_some hp
    constructor
    · intro hm
      refine ⟨(hdir d).1 ?_, h2 _ hm⟩
      rw [← h1]
      exact List.mem_map.2 ⟨_, hm, rfl⟩
    · rintro ⟨hd, hl⟩
      rw [← hdir, ← h1] at hd
      obtain ⟨⟨d', fs'⟩, hpm, rfl⟩ := List.mem_map.1 hd
      have := h2 _ hpm
      simp only at this hl
      rw [hl, Option.some.injEq] at this
      rw [this]
      exact hpm
  · obtain ⟨h1, _⟩ := loadProjects_some hp
    have : ps.map (fun p => some (p.dir ++ ["Mabo.toml".toList], true)) =
        ((w.search base).filterMap projectDir).map fun d => some (d ++ ["Mabo.toml".toList], true) := by
      rw [← h1, List.map_map]
      rfl
    rw [this]
    generalize w.search base = es
    clear hp h1 this hdir
    induction es with
    | nil => exact List.Sublist.refl _
    | cons e es ih =>
      rw [List.filterMap_cons]
      cases he : projectDir e with
      | none => exact ih.cons _
      | some d =>
        rw [projectDir_some] at he
        subst he
        exact ih.cons_cons _

/-- C84, the documents of the server after `initialize`: exactly the files of the projects in the folders that are text and whose
path can be read as a URI, with the text on the disk; known by their path. -/
theorem C84_loaded (w : Workspace) (folders : List Text) (hnames : ∀ p, Found w folders p → ∀ n ∈ p, '/' ∉ n) (k t : Text) :
    content (initialFiles w folders) k = some t ↔
      ∃ p, Found w folders p ∧ k = pathText p ∧ w.isUri (pathText p) = true ∧ w.disk.read p = some t := by
  have hm : ∀ k t, (k, t) ∈ preload w folders ↔
      ∃ p, Found w folders p ∧ k = pathText p ∧ w.isUri (pathText p) = true ∧ w.disk.read p = some t := by
    intro k t
    have hf : ∀ p, p ∈ (folders.flatMap fun u => (discover w (components (uriPath u))).getD []).flatMap (·.files) ↔
        Found w folders p := by
      intro p
      simp only [List.mem_flatMap, Found]
      constructor
      · rintro ⟨pr, ⟨u, hu, hpr⟩, hp⟩
        cases hd : discover w (components (uriPath u)) with
        | none => rw [hd] at hpr; exact nomatch hpr
        | some ps => rw [hd] at hpr; exact ⟨u, hu, ps, hd, pr, hpr, hp⟩
      · rintro ⟨u, hu, ps, hd, pr, hpr, hp⟩
        exact ⟨pr, ⟨u, hu, by rw [hd]; exact hpr⟩, hp⟩
    simp only [preload, List.mem_filterMap, hf]
    constructor
    · rintro ⟨p, hp, h⟩
      refine ⟨p, hp, ?_⟩
      cases hr : w.disk.read p with
      | none => rw [hr] at h; cases h
      | some t' =>
        rw [hr] at h
        simp only at h
        split at h
        · next hu => cases h; exact ⟨rfl, hu, rfl⟩
        · cases h
    · rintro ⟨p, hp, rfl, hu, hr⟩
      exact ⟨p, hp, by rw [hr]; simp only [hu, if_true]⟩
  rw [initialFiles, content_loadFiles, hm]
  intro k a b ha hb
  obtain ⟨p, hp, rfl, _, h1⟩ := (hm _ _).1 ha
  obtain ⟨q, hq, e, _, h2⟩ := (hm _ _).1 hb
  have := pathText_inj (hnames p hp) (hnames q hq) e
  subst this
  rw [h1, Option.some.injEq] at h2
  exact h2

/-- The full claim: what a client asks about a file of a project in the workspace is answered from the file, also if it has not been
opened. -/
def KnownFromStart (w : Workspace) (folders : List Text) : Prop :=
  ∀ p t, Found w folders p → w.disk.read p = some t → w.isUri (fileUri p) = true →
    content (initialFiles w folders) (fileUri p) = some t

theorem initial_keys (w : Workspace) (folders : List Text) : ∀ e ∈ initialFiles w folders, ¬ HasScheme e.1 := by
  refine foldl_keys (fun k => ¬ HasScheme k) _ [] (fun e he => ?_) (by nofun)
  simp only [preload, List.mem_filterMap] at he
  obtain ⟨p, _, hp⟩ := he
  cases hr : w.disk.read p with
  | none => rw [hr] at hp; cases hp
  | some t =>
    rw [hr] at hp
    simp only at hp
    split at hp
    · cases hp; exact pathText_noScheme p
    · cases hp

/-- Refutation of C84: no document is known under a URI with a scheme, whatever there is in the workspace; and clients' URIs have
one. -/
theorem C84_fails_for_clients (w : Workspace) (folders : List Text) :
    (∀ u, HasScheme u → content (initialFiles w folders) u = none) ∧
    ∀ p t, Found w folders p → w.disk.read p = some t → w.isUri (fileUri p) = true → ¬ KnownFromStart w folders := by
  have h : ∀ u, HasScheme u → content (initialFiles w folders) u = none := fun u hu => by
    rw [content, get_none_of fun e he hk => initial_keys w folders e he (hk ▸ hu)]
    rfl
  refine ⟨h, fun p t hp ht hu hk => ?_⟩
  have := hk p t hp ht hu
  rw [h (fileUri p) ⟨'f', "ile://".toList ++ pathText p, rfl, by decide⟩] at this
  cases this

/-- C84 (partial, what is left of it): the loaded files do no harm. Whatever the client says about documents with schemes in their
URIs, the server ends the same way as if it had loaded nothing, with the same documents; and the loaded ones stay as they are, so
that they are neither updated nor deleted. -/
theorem C84_harmless_partial (offset : Text → Position → Option Nat) (w : Workspace) (folders : List Text)
    (ns : List (Notification Text)) (hn : ∀ n ∈ ns, ∀ u ∈ mentions n, HasScheme u) :
    (∃ fs fs', run offset [] ns = .ok fs ∧ run offset (initialFiles w folders) ns = .ok fs' ∧
      (∀ u, HasScheme u → get fs' u = get fs u) ∧ ∀ u, ¬ HasScheme u → get fs' u = get (initialFiles w folders) u) ∨
    (run offset [] ns = .panic ∧ run offset (initialFiles w folders) ns = .panic) := by
  have h0 : Beside (initialFiles w folders) [] (initialFiles w folders) :=
    ⟨fun k hk => get_none_of fun e he hk' => initial_keys w folders e he (hk' ▸ hk), fun _ _ => rfl⟩
  rcases run_beside (offset := offset) h0 hn with ⟨a, b, ha, hb, h⟩ | h
  · exact .inl ⟨a, b, ha, hb, h.same, h.rest⟩
  · exact .inr h

/-- C84 (partial, the same for the whole server): whatever the client sends, as long as the URIs in it have schemes, every message the
server sends — answers, questions, diagnostics, in their order — and the way it ends are those of a server that has loaded
nothing. -/
theorem C84_same_session_partial {Json : Type} (s : Server Text Json) (w : Workspace) (folders : List Text) (es : List (Event Json))
    (hes : ∀ e ∈ es, ∀ j ∈ parameters e, Schemed s.reader j) : serveWith s (initialFiles w folders) es = serve s es :=
  serveWith_near s
    ⟨fun k hk => (get_none_of fun e he hk' => initial_keys w folders e he (hk' ▸ hk) : Lsp.get _ k = none), fun _ _ => rfl⟩ es hes

/-- Parameters that are a URI. -/
def uriReader : Reader Text Text where
  null := []
  hover := fun u => some (u, ⟨0, 0⟩)
  documentSymbol := some
  semanticTokens := some
  initialized := fun _ => some ()
  didOpen := fun u => some (u, "struct A".toList)
  didChange := fun u => some (u, [])
  didClose := some
  didDelete := fun u => some [u]
  didChangeConfiguration := fun _ => some ()
  list := fun _ => none
  settings := fun _ => none

/-- The hypothesis is met by sessions of editors. -/
example (env : Env) (offset : Text → Position → Option Nat) (position : Text → Nat → Option Position) (w : Workspace)
    (folders : List Text) (es : List (Event Text))
    (he : es = [.message (.notification "textDocument/didOpen" "file:///w/a/x.mabo".toList), .pause false,
      .message (.request (.inl 1) "textDocument/hover" "file:///w/a/x.mabo".toList),
      .message (.notification "workspace/didDeleteFiles" "file:///w/a/x.mabo".toList)]) :
    serveWith ⟨uriReader, env, offset, position⟩ (initialFiles w folders) es = serve ⟨uriReader, env, offset, position⟩ es := by
  subst he
  refine C84_same_session_partial _ w folders _ fun e he j hj => ?_
  have hj : j = "file:///w/a/x.mabo".toList := by
    simp only [List.mem_cons, List.not_mem_nil, or_false] at he
    rcases he with rfl | rfl | rfl | rfl <;> simpa [parameters] using hj
  subst hj
  have h : HasScheme "file:///w/a/x.mabo".toList := ⟨'f', "ile:///w/a/x.mabo".toList, rfl, by decide⟩
  refine ⟨fun p e => ?_, fun u e => ?_, fun u e => ?_, fun p e => ?_, fun p e => ?_, fun u e => ?_, fun us e u hu => ?_⟩ <;>
    injection e with e <;> subst e <;> first | exact h | (rw [List.mem_singleton] at hu; subst hu; exact h)

/-- What is true of the documents: if all projects in a folder can be loaded, their files are known by their path. -/
theorem C84_complete (w : Workspace) (folders : List Text) (hnames : ∀ p, Found w folders p → ∀ n ∈ p, '/' ∉ n) (u : Text)
    (hu : u ∈ folders) (hall : ∀ d, ProjectIn w (components (uriPath u)) d → ∃ files, Cli.load w.host d = some files) (d : Path)
    (hd : ProjectIn w (components (uriPath u)) d) (files : List Path) (hl : Cli.load w.host d = some files) (p : Path) (hp : p ∈ files)
    (t : Text) (ht : w.disk.read p = some t) (huri : w.isUri (pathText p) = true) :
    content (initialFiles w folders) (pathText p) = some t := by
  obtain ⟨ps, hps⟩ := (C84_discover w _).1.2 hall
  exact (C84_loaded w folders hnames _ _).2
    ⟨p, ⟨u, hu, ps, hps, _, (((C84_discover w _).2 ps hps).1 d files).2 ⟨hd, hl⟩, hp⟩, rfl, huri, ht⟩

/-- C84, the folder that is searched: it is that of the URI, without host, query and fragment, if no name in its path has characters
that need escapes. (For others it is a wrong one, see below.) -/
theorem C84_folder_partial (host : Text) (p : Path) (rest : Text) (hhost : ∀ c ∈ host, c ≠ '/' ∧ c ≠ '?' ∧ c ≠ '#')
    (hp : ∀ n ∈ p, n ≠ [] ∧ ∀ c ∈ n, c ≠ '/' ∧ c ≠ '?' ∧ c ≠ '#') (hrest : rest = [] ∨ ∃ r, rest = '?' :: r ∨ rest = '#' :: r) :
    components (uriPath ("file://".toList ++ host ++ pathText p ++ rest)) = p := by
  have h1 : afterScheme ("file://".toList ++ host ++ pathText p ++ rest) = '/' :: '/' :: (host ++ (pathText p ++ rest)) := by
    rw [List.append_assoc, List.append_assoc]
    rfl
  have h2 : afterAuthority ('/' :: '/' :: (host ++ (pathText p ++ rest))) = pathText p ++ rest := by
    rw [afterAuthority, dropWhile_pass fun c hc => by have := hhost c hc; simp [this.1, this.2.1, this.2.2]]
    cases p with
    | nil => rcases hrest with rfl | ⟨r, rfl | rfl⟩ <;> rfl
    | cons n ns => rfl
  have h3 : (pathText p ++ rest).takeWhile (fun c => c != '?' && c != '#') = pathText p := by
    rw [takeWhile_pass fun c hc => by
      obtain ⟨n, hn, hc⟩ := List.mem_flatMap.1 hc
      rcases List.mem_cons.1 hc with rfl | hc
      · rfl
      · have := (hp n hn).2 c hc
        simp [this.2.1, this.2.2]]
    rcases hrest with rfl | ⟨r, rfl | rfl⟩ <;> simp
  rw [uriPath, h1, h2, h3]
  exact components_pathText fun n hn => ⟨(hp n hn).1, fun hc => ((hp n hn).2 _ hc).1 rfl⟩

example : components (uriPath "file://localhost/home/me/schemas?x#y".toList) = ["home".toList, "me".toList, "schemas".toList] :=
  C84_folder_partial "localhost".toList ["home".toList, "me".toList, "schemas".toList] "?x#y".toList (by decide +kernel)
    (by decide +kernel) (.inr ⟨_, .inl rfl⟩)

/-! ### Examples -/

/-- Two projects, `/w/a` and `/w/b c`, with one file each; the project file of the latter is broken if `broken`. -/
def twoHost (broken : Bool) : Host where
  pattern := fun _ => some fun _ => true
  walk := fun _ => [some ["x.mabo".toList]]
  glob := fun _ => none
  project := fun d => if d = ["w".toList, "b c".toList] ∧ broken = true then none else some ["*"]

/-- What walks find: the project file of the former is a link if `link`. -/
def twoSearch (link : Bool) (d : Path) : List (Option (Path × Bool)) :=
  if d = ["w".toList] then
    [some (["w".toList, "a".toList, "Mabo.toml".toList], !link), none,
      some (["w".toList, "b c".toList, "Mabo.toml".toList], true)]
  else if d = ["w".toList, "b c".toList] then [some (["w".toList, "b c".toList, "Mabo.toml".toList], true)]
  else []

/-- Spaces cannot be in URIs; all files have the same text. -/
noncomputable def twoProjects (broken link : Bool) (t : Text) : Workspace where
  host := twoHost broken
  search := twoSearch link
  disk := ⟨fun _ => some 0, fun _ => some t.utf8Encode⟩
  isUri := fun u => !u.contains ' '

/-- The files that are found. -/
def twoFound (broken link : Bool) (u : Text) : Option (List (List Path)) :=
  (loadProjects (twoHost broken) ((twoSearch link (components u)).filterMap projectDir)).map (·.map (·.files))

theorem twoFound_eq (broken link : Bool) (t u : Text) :
    (discover (twoProjects broken link t) (components u)).map (·.map (·.files)) = twoFound broken link u := rfl

theorem twoProjects_isUri (broken link : Bool) (t u : Text) : (twoProjects broken link t).isUri u = !u.contains ' ' := rfl

theorem twoProjects_read (broken link : Bool) (t : Text) (p : Path) : (twoProjects broken link t).disk.read p = some t :=
  Cli.read_iff.2 ⟨0, rfl, rfl⟩

theorem twoFound_found {broken link : Bool} {t u : Text} {fss : List (List Path)} (h : twoFound broken link (uriPath u) = some fss)
    (p : Path) : Found (twoProjects broken link t) [u] p ↔ ∃ fs ∈ fss, p ∈ fs := by
  rw [← twoFound_eq broken link t, Option.map_eq_some_iff] at h
  obtain ⟨ps, hps, rfl⟩ := h
  simp only [Found, List.mem_singleton, exists_eq_left, hps, Option.some.injEq, exists_eq_left', List.mem_map]
  exact ⟨fun ⟨pr, h, hp⟩ => ⟨_, ⟨pr, h, rfl⟩, hp⟩, fun ⟨_, ⟨pr, h, e⟩, hp⟩ => ⟨pr, h, e ▸ hp⟩⟩

/-- What these theorems speak about: in a folder with two projects both files are found; the one without a space in its path is
loaded, under its path, which no client uses. -/
theorem C84_example (t : Text) :
    content (initialFiles (twoProjects false false t) ["file:///w".toList]) "/w/a/x.mabo".toList = some t ∧
    content (initialFiles (twoProjects false false t) ["file:///w".toList]) "/w/b c/x.mabo".toList = none ∧
    content (initialFiles (twoProjects false false t) ["file:///w".toList]) "file:///w/a/x.mabo".toList = none ∧
    ¬ KnownFromStart (twoProjects false false t) ["file:///w".toList] := by
  have hf := twoFound_found (t := t) (broken := false) (link := false) (u := "file:///w".toList)
    (fss := [[["w".toList, "a".toList, "x.mabo".toList]], [["w".toList, "b c".toList, "x.mabo".toList]]]) (by decide +kernel)
  have hn : ∀ p, Found (twoProjects false false t) ["file:///w".toList] p → ∀ n ∈ p, '/' ∉ n := fun p hp => by
    obtain ⟨fs, hfs, hp⟩ := (hf p).1 hp
    simp only [List.mem_cons, List.not_mem_nil, or_false] at hfs
    rcases hfs with rfl | rfl <;> rw [List.mem_singleton] at hp <;> subst hp <;> decide +kernel
  have ha : Found (twoProjects false false t) ["file:///w".toList] ["w".toList, "a".toList, "x.mabo".toList] :=
    (hf _).2 ⟨_, List.mem_cons_self .., List.mem_cons_self ..⟩
  refine ⟨(C84_loaded _ _ hn _ _).2 ⟨_, ha, by decide +kernel, by rw [twoProjects_isUri]; decide +kernel, twoProjects_read ..⟩, ?_,
    (C84_fails_for_clients _ _).1 _ ⟨'f', "ile:///w/a/x.mabo".toList, rfl, by decide⟩,
    (C84_fails_for_clients _ _).2 _ t ha (twoProjects_read ..) (by rw [twoProjects_isUri]; decide +kernel)⟩
  cases hc : content (initialFiles (twoProjects false false t) ["file:///w".toList]) "/w/b c/x.mabo".toList with
  | none => rfl
  | some t' =>
    obtain ⟨p, _, e, hu, _⟩ := (C84_loaded _ _ hn _ _).1 hc
    rw [← e, twoProjects_isUri] at hu
    exact absurd hu (by decide +kernel)

/-- Refutation: one project file that cannot be read hides all other projects of the folder, also for a library that asks for
them. -/
theorem C84_fails_for_broken_neighbours (t : Text) :
    ProjectIn (twoProjects true false t) ["w".toList] ["w".toList, "a".toList] ∧
    Cli.load (twoProjects true false t).host ["w".toList, "a".toList] = some [["w".toList, "a".toList, "x.mabo".toList]] ∧
    (discover (twoProjects true false t) ["w".toList]).isNone = true ∧
    initialFiles (twoProjects true false t) ["file:///w".toList] = [] := by
  have hd : twoFound true false "/w".toList = none := by decide +kernel
  have hd' : discover (twoProjects true false t) ["w".toList] = none := by
    have e : components "/w".toList = ["w".toList] := by decide +kernel
    rw [← twoFound_eq true false t, Option.map_eq_none_iff, e] at hd
    exact hd
  have e : components (uriPath "file:///w".toList) = ["w".toList] := by decide +kernel
  refine ⟨List.mem_cons_self .., by show Cli.load (twoHost true) _ = _; decide +kernel, by rw [hd']; rfl, ?_⟩
  simp only [initialFiles, preload, List.flatMap_cons, List.flatMap_nil, e, hd', Option.getD_none, List.append_nil, List.filterMap_nil]
  rfl

/-- Refutation: escapes in the URI of a folder are not undone, so that nothing is found in a folder with a space in its path. -/
theorem C84_fails_for_escapes (t : Text) :
    components (unescape (uriPath "file:///w/b%20c".toList)) = ["w".toList, "b c".toList] ∧
    twoFound false false (unescape (uriPath "file:///w/b%20c".toList)) = some [[["w".toList, "b c".toList, "x.mabo".toList]]] ∧
    twoFound false false (uriPath "file:///w/b%20c".toList) = some [] ∧
    ∀ p, ¬ Found (twoProjects false false t) ["file:///w/b%20c".toList] p := by
  have h : twoFound false false (uriPath "file:///w/b%20c".toList) = some [] := by decide +kernel
  refine ⟨by decide +kernel, by decide +kernel, h, fun p hp => ?_⟩
  obtain ⟨fs, hfs, _⟩ := (twoFound_found h p).1 hp
  exact nomatch hfs

/-- Refutation: a project whose `Mabo.toml` is a link can be loaded by the other tools, but is not found. -/
theorem C84_fails_for_links (t : Text) :
    some (["w".toList, "a".toList, "Mabo.toml".toList], false) ∈ (twoProjects false true t).search ["w".toList] ∧
    Cli.load (twoProjects false true t).host ["w".toList, "a".toList] = some [["w".toList, "a".toList, "x.mabo".toList]] ∧
    ¬ Found (twoProjects false true t) ["file:///w".toList] ["w".toList, "a".toList, "x.mabo".toList] := by
  refine ⟨List.mem_cons_self .., by show Cli.load (twoHost false) _ = _; decide +kernel, fun hp => ?_⟩
  have h : twoFound false true (uriPath "file:///w".toList) = some [[["w".toList, "b c".toList, "x.mabo".toList]]] := by
    decide +kernel
  obtain ⟨fs, hfs, hp⟩ := (twoFound_found h _).1 hp
  rw [List.mem_singleton] at hfs
  subst hfs
  exact absurd hp (by decide +kernel)

end Mabo.Props
