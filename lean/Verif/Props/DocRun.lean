import Verif.Cli.DocPlan
import Verif.Props.Cli
/-!
C79: `mabo doc` writes its pages and touches nothing else.

The specification is in `Spec/DocRun.lean`. Everything is for every file system, every list of schema files, every output
directory and every way in which operations fail or the process is killed (`faults`).
-/
namespace Mabo.Props
open Mabo.DocRun Mabo.Spec
open Mabo.Parse (Text Std)
open Mabo.Doc (Markdown)
open Mabo.Cli (Path Fault)

variable (std : Std) (md : Markdown) (checked : Bool) (out : Path)

/-- C79: whenever and however the run ends, what is at a path is what was there before, or it is a new directory that contains a
page, or it is a page, or the first bytes of one. So no directory is replaced, nothing is deleted, and no file but the pages is
written. -/
theorem C79_touches_nothing_else (files : List Path) (hf : SchemaFiles files) (m m' : Machine) (e : End)
    (h : docFiles std md checked out m files = (e, m')) (p : Path) :
    m'.tree p = m.tree p ∨
    (m.tree p = none ∧ m'.tree p = some .dir ∧ ∃ q text, IsPage std md checked out m.tree files q text ∧ Above p q) ∨
    (m.tree p ≠ some .dir ∧ ∃ text n, IsPage std md checked out m.tree files p text ∧
      m'.tree p = some (.file (text.utf8Encode.extract 0 n))) := by
  rw [docFiles_plan hf] at h
  have hx : ∃ r, exec m (plan std md checked out m.tree files).1 = (r, m') := by
    cases hx : exec m (plan std md checked out m.tree files).1 with
    | mk r m₁ =>
      rw [hx] at h
      cases r <;> · injection h with _ h; subst h; exact ⟨_, rfl⟩
  obtain ⟨r, hx⟩ := hx
  rcases exec_frame hx p with h | ⟨h1, h2, h3⟩ | ⟨b, n, h1, h2, h3⟩
  · exact .inl h
  · obtain ⟨q, text, hq, ha | ⟨p', hp', ha⟩⟩ := plan_mem hf h3
    · cases ha
    · injection ha with ha
      subst ha
      exact .inr (.inl ⟨h1, h2, q, text, hq, hp'⟩)
  · obtain ⟨q, text, hq, ha | ⟨p', _, ha⟩⟩ := plan_mem hf h1
    · injection ha with ha hb
      subst ha hb
      exact .inr (.inr ⟨h3, text, n, hq, h2⟩)
    · cases ha

/-- Where the pages are: in the output directory, two levels down, in directories with the names of modules; their names end
in `.html`. -/
theorem C79_places (files : List Path) (hf : SchemaFiles files) (t : Tree) (q : Path) (text : Text)
    (h : IsPage std md checked out t files q text) : ∃ f ∈ files, ∃ (dirs : List Text) (n : Text),
      q = out ++ (nameOf f).toList :: (nameOf f).toList :: (dirs ++ [n ++ ".html".toList]) ∧ ∀ w ∈ dirs, '/' ∉ w ∧ '.' ∉ w := by
  obtain ⟨f, hff, h⟩ := h
  exact ⟨f, hff, pageOf_place (hf f hff).1 (hf f hff).2 h⟩

/-- C79: so what is neither below the output directory nor a missing directory above it is left alone. -/
theorem C79_outside (files : List Path) (hf : SchemaFiles files) (m m' : Machine) (e : End)
    (h : docFiles std md checked out m files = (e, m')) (p : Path) (hp : ∀ r, r ≠ [] → p ≠ out ++ r) (ht : m.tree p ≠ none) :
    m'.tree p = m.tree p := by
  rcases C79_touches_nothing_else std md checked out files hf m m' e h p with h | ⟨h1, _⟩ | ⟨_, text, _, h1, _⟩
  · exact h
  · exact absurd h1 ht
  · obtain ⟨_, _, _, _, e, _⟩ := C79_places std md checked out files hf m.tree p text h1
    exact absurd e (hp _ (by simp))

/-- C79: no file is changed unless its name ends in `.html`; in particular the schema files are safe, even if the pages are
written into the project. -/
theorem C79_sources_kept (files : List Path) (hf : SchemaFiles files) (m m' : Machine) (e : End)
    (h : docFiles std md checked out m files = (e, m')) (p : Path) (hp : ∀ dir n, p ≠ dir ++ [n ++ ".html".toList])
    (ht : m.tree p ≠ none) : m'.tree p = m.tree p := by
  rcases C79_touches_nothing_else std md checked out files hf m m' e h p with h | ⟨h1, _⟩ | ⟨_, text, _, h1, _⟩
  · exact h
  · exact absurd h1 ht
  · obtain ⟨f, _, dirs, n, e, _⟩ := C79_places std md checked out files hf m.tree p text h1
    exact absurd (show p = (out ++ (nameOf f).toList :: (nameOf f).toList :: dirs) ++ [n ++ ".html".toList] by rw [e]; simp) (hp _ _)

/-- C79: nothing is deleted, and directories stay directories. -/
theorem C79_deletes_nothing (files : List Path) (hf : SchemaFiles files) (m m' : Machine) (e : End)
    (h : docFiles std md checked out m files = (e, m')) (p : Path) :
    (m.tree p ≠ none → m'.tree p ≠ none) ∧ (m.tree p = some .dir → m'.tree p = some .dir) := by
  rcases C79_touches_nothing_else std md checked out files hf m m' e h p with h | ⟨h1, h2, _⟩ | ⟨h0, _, _, _, h2⟩
  · rw [h]; exact ⟨id, id⟩
  · rw [h2]; exact ⟨fun _ => nofun, fun _ => rfl⟩
  · exact ⟨fun _ => by rw [h2]; exact nofun, fun h => absurd h h0⟩

/-- C79: a run that reports success has documented every file, and at the place of every page there is a whole page for this
place. -/
theorem C79_success (files : List Path) (hf : SchemaFiles files) (m m' : Machine)
    (h : docFiles std md checked out m files = (.success, m')) :
    (∀ f ∈ files, CanDocument std md checked out m.tree f) ∧
    ∀ q text, IsPage std md checked out m.tree files q text →
      ∃ text', IsPage std md checked out m.tree files q text' ∧ m'.tree q = some (.file text'.utf8Encode) := by
  rw [docFiles_plan hf] at h
  cases hx : exec m (plan std md checked out m.tree files).1 with
  | mk r m₁ =>
    rw [hx] at h
    cases r with
    | false => injection h with h; cases h
    | true =>
      injection h with h1 h2
      subst h2
      obtain ⟨h3, h4⟩ := plan_success hf h1
      obtain ⟨h5, h6⟩ := exec_success hx
      refine ⟨h3, fun q text hq => ?_⟩
      obtain ⟨h7, _⟩ := h4 q text hq
      obtain ⟨c, h8, h9⟩ := applyAll_wr _ (t := m.tree) h7 fun hm => h5.apart q _ hm h7
      obtain ⟨q', text', hq', ha | ⟨_, _, ha⟩⟩ := plan_mem hf h8
      · injection ha with ha hb
        subst ha hb
        exact ⟨text', hq', by rw [h6, h9]⟩
      · cases ha

theorem html_nodup {stem : String} {src : Text} {s : Ast.Schema} {u : Simplify.Schema} (hp : '/' ∉ stem.toList)
    (h2 : Parse.parseSchema std src = some s) (h3 : Simplify.simplifySchema checked s = some u)
    (hv : Compiler.validateSchema checked s = .ok) : ((Doc.htmlSchema std md checked out stem u).map Prod.fst).Nodup := by
  have hdoc : Documented std checked out stem src s (Doc.docSchema std checked out stem u) :=
    ⟨hp, h2, by simp only [Doc.doc, h2, h3, List.append_nil]⟩
  have h4 := congrArg (List.map Prod.fst) (C76_paths std md checked out stem u)
  simp only [List.map_map] at h4
  have h5 : (Prod.fst ∘ fun x : List Text × Doc.Page => (x.1, x.2.nextId.isSome)) = Prod.fst := rfl
  have h6 : (Prod.fst ∘ fun x : List Text × Option Text => (x.1, x.2.isSome)) = Prod.fst := rfl
  rw [h5, h6] at h4
  rw [h4]
  exact C53_distinct hdoc hv

theorem nodup_fst {α β : Type} : ∀ {l : List (α × β)}, (l.map Prod.fst).Nodup → ∀ {a : α} {b c : β}, (a, b) ∈ l → (a, c) ∈ l → b = c
  | [], _, a, b, c, h, _ => nomatch h
  | (x, y) :: l, hn, a, b, c, hb, hc => by
    rw [List.map_cons, List.nodup_cons] at hn
    rcases List.mem_cons.1 hb with e | hb' <;> rcases List.mem_cons.1 hc with e' | hc'
    · injection e with _ e; injection e' with _ e'; rw [e, e']
    · injection e with e _; exact absurd (List.mem_map.2 ⟨_, hc', e⟩) hn.1
    · injection e' with e' _; exact absurd (List.mem_map.2 ⟨_, hb', e'⟩) hn.1
    · exact nodup_fst hn.2 hb' hc'

/-- C79: if all schemas pass validation and the files have different names, every page of every file is there and whole. -/
theorem C79_all_pages (files : List Path) (hf : SchemaFiles files)
    (hd : ∀ f ∈ files, ∀ g ∈ files, f ≠ g → nameOf f ≠ nameOf g) (m m' : Machine)
    (hv : ∀ f ∈ files, ∀ src s, Tree.read m.tree f = some src → Parse.parseSchema std src = some s →
      Compiler.validateSchema checked s = .ok)
    (h : docFiles std md checked out m files = (.success, m')) (q : Path) (text : Text)
    (hq : IsPage std md checked out m.tree files q text) : m'.tree q = some (.file text.utf8Encode) := by
  obtain ⟨text', ⟨g, hg, hpg⟩, e⟩ := (C79_success std md checked out files hf m m' h).2 q text hq
  obtain ⟨f, hff, hpf⟩ := hq
  have hfg : f = g := by
    refine Classical.byContradiction fun hne => ?_
    obtain ⟨_, _, e1, _⟩ := pageOf_place (hf f hff).1 (hf f hff).2 hpf
    obtain ⟨_, _, e2, _⟩ := pageOf_place (hf g hg).1 (hf g hg).2 hpg
    have := List.append_cancel_left (e1.symm.trans e2)
    injection this with this _
    exact hd f hff g hg hne (String.toList_inj.1 this)
  subst hfg
  obtain ⟨src, s, u, h1, h2, h3, h4⟩ := hpf
  obtain ⟨src', s', u', e1, e2, e3, e4⟩ := hpg
  rw [h1] at e1; injection e1 with e1; subst e1
  rw [h2] at e2; injection e2 with e2; subst e2
  rw [h3] at e3; injection e3 with e3; subst e3
  have := nodup_fst (html_nodup std md checked out (nameOf_schema (hf f hff).1 (hf f hff).2) h2 h3 (hv f hff src s h1 h2)) h4 e4
  injection this with this
  rw [e, this]

/-- C79: if no operation fails, the exit code is right: success means that every file can be documented and nothing is in the way
of a page. -/
theorem C79_exit (files : List Path) (hf : SchemaFiles files) (t : Tree) :
    (docFiles std md checked out (undisturbed t) files).1 = .success ↔
      (∀ f ∈ files, CanDocument std md checked out t f) ∧ ∀ q text, IsPage std md checked out t files q text → Unobstructed t q := by
  rw [docFiles_plan hf]
  constructor
  · intro h
    cases hx : exec (undisturbed t) (plan std md checked out t files).1 with
    | mk r m₁ =>
      rw [show (undisturbed t).tree = t from rfl, hx] at h
      cases r with
      | false => cases h
      | true =>
        obtain ⟨h3, h4⟩ := plan_success hf h
        obtain ⟨h5, _⟩ := exec_success hx
        exact ⟨h3, fun q text hq => ⟨h5.files q _ (h4 q text hq).1, fun p b hp => h5.dirs p b ((h4 q text hq).2 p hp)⟩⟩
  · rintro ⟨h1, h2⟩
    have hfree : Free t (plan std md checked out t files).1 := by
      refine ⟨fun p b hp => ?_, fun p b hp => ?_, fun p b hp hb => ?_⟩
      · obtain ⟨q, text, hq, ha | ⟨p', hp', ha⟩⟩ := plan_mem hf hp
        · cases ha
        · injection ha with ha; subst ha; exact (h2 q text hq).2 p b hp'
      · obtain ⟨q, text, hq, ha | ⟨p', _, ha⟩⟩ := plan_mem hf hp
        · injection ha with ha _; subst ha; exact (h2 p text hq).1
        · cases ha
      · obtain ⟨q, text, hq, ha | ⟨p', hp', ha⟩⟩ := plan_mem hf hp
        · cases ha
        · injection ha with ha
          subst ha
          obtain ⟨q', text', hq', ha | ⟨_, _, ha⟩⟩ := plan_mem hf hb
          · injection ha with ha _
            subst ha
            exact page_not_above hf hq' hq hp'
          · cases ha
    rw [show (undisturbed t).tree = t from rfl, undisturbed, exec_done _ _ hfree]
    exact plan_end h1

/-- C79: a run that was interrupted anywhere does no harm: if the command would have succeeded, running it again gives exactly what
it would have given. -/
theorem C79_run_again (files : List Path) (hf : SchemaFiles files) (t : Tree) (m₁ m₂ : Machine) (fs : List Fault) (e : End)
    (h : docFiles std md checked out (undisturbed t) files = (.success, m₁))
    (hi : docFiles std md checked out ⟨t, fs⟩ files = (e, m₂)) :
    docFiles std md checked out (undisturbed m₂.tree) files = (.success, m₁) := by
  have hread : ∀ f ∈ files, Tree.read m₂.tree f = Tree.read t f := by
    intro f hff
    by_cases hn : t f = none
    · rcases C79_touches_nothing_else std md checked out files hf _ _ e hi f with h | ⟨_, h2, _⟩ | ⟨_, text, _, h1, _⟩
      · unfold Tree.read; rw [h]
      · unfold Tree.read; rw [h2, hn]
      · obtain ⟨g, hg, hpg⟩ := h1
        exact absurd (hf f hff).1 (pageOf_not_schema (hf g hg).1 (hf g hg).2 hpg)
    · unfold Tree.read
      rw [C79_sources_kept std md checked out files hf _ _ e hi f (fun dir n he => ?_) hn]
      have := (hf f hff).1
      rw [he] at this
      exact page_not_schema this
  rw [docFiles_plan hf] at h hi ⊢
  rw [show (undisturbed m₂.tree).tree = m₂.tree from rfl, plan_congr hread]
  rw [show (undisturbed t).tree = t from rfl] at h
  cases hx : exec (undisturbed t) (plan std md checked out t files).1 with
  | mk r m₀ =>
    rw [hx] at h
    cases r with
    | false => injection h with h; cases h
    | true =>
      injection h with h1 h2
      subst h2
      obtain ⟨h5, h6⟩ := exec_success hx
      have hd := exec_done _ _ h5
      rw [show (⟨(undisturbed t).tree, []⟩ : Machine) = undisturbed t from rfl, hx] at hd
      injection hd with _ hd
      have hi' : ∃ r, exec ⟨t, fs⟩ (plan std md checked out t files).1 = (r, m₂) := by
        cases hy : exec ⟨t, fs⟩ (plan std md checked out t files).1 with
        | mk r m₃ =>
          rw [show (⟨t, fs⟩ : Machine).tree = t from rfl, hy] at hi
          cases r <;> · injection hi with _ hi; subst hi; exact ⟨_, rfl⟩
      obtain ⟨r, hi'⟩ := hi'
      rw [undisturbed, exec_again hi' h5]
      dsimp only
      rw [h1, hd]
      rfl

/-- After success the directories above the pages are there. -/
theorem C79_directories (files : List Path) (hf : SchemaFiles files) (m m' : Machine)
    (h : docFiles std md checked out m files = (.success, m')) (p q : Path) (text : Text)
    (hq : IsPage std md checked out m.tree files q text) (hp : Above p q) : m'.tree p = some .dir := by
  rw [docFiles_plan hf] at h
  cases hx : exec m (plan std md checked out m.tree files).1 with
  | mk r m₁ =>
    rw [hx] at h
    cases r with
    | false => injection h with h; cases h
    | true =>
      injection h with h1 h2
      subst h2
      obtain ⟨h5, h6⟩ := exec_success hx
      have hm := ((plan_success hf h1).2 q text hq).2 p hp
      rw [h6]
      exact applyAll_mk _ (.inl hm) fun b hb => h5.apart p b hm hb

/-- C79 for the command: it stops before it does anything, or it does the above for the schema files of the project. -/
theorem C79_command (h : Cli.Host) (dir : Path) (hdir : ∀ n ∈ dir, '/' ∉ n)
    (hwalk : ∀ rel, some rel ∈ h.walk dir → ∀ n ∈ rel, '/' ∉ n) (m : Machine) :
    docCommand std md checked h dir out m = (.failure, m) ∨ ∃ files, Cli.load h dir = some files ∧ SchemaFiles files ∧
      docCommand std md checked h dir out m = docFiles std md checked out m files := by
  unfold docCommand
  cases hl : Cli.load h dir with
  | none => exact .inl rfl
  | some files =>
    refine .inr ⟨files, rfl, fun f hf => ?_, rfl⟩
    unfold Cli.load at hl
    cases hp : h.project dir with
    | none => rw [hp] at hl; cases hl
    | some patterns =>
      rw [hp] at hl
      obtain ⟨rel, rfl, hm, ⟨d, n, hn, e⟩, _⟩ := (((C70_selected h dir patterns).2 files hl).1 f).1 hf
      refine ⟨⟨dir ++ d, n, hn, by rw [e, List.append_assoc]⟩, fun w hw => ?_⟩
      rcases List.mem_append.1 hw with hw | hw
      · exact hdir w hw
      · exact hwalk rel hm w hw

/-- A run ends with a failure if one of the selected paths is a directory. -/
theorem C79_directory_selected (files : List Path) (hf : SchemaFiles files) (m : Machine) (p : Path) (hp : p ∈ files)
    (ht : m.tree p = some .dir) : (docFiles std md checked out m files).1 ≠ .success := by
  intro h
  obtain ⟨_, _, _, h1, _⟩ := (C79_success std md checked out files hf m _ (Prod.ext h rfl)).1 p hp
  unfold Tree.read at h1
  rw [ht] at h1
  cases h1

/-- For a file `….mabo.mabo` the command makes a directory `….mabo`, which the project selects as a schema file if it is matched
(C70): then the command cannot run again. -/
theorem C79_double_extension (files : List Path) (hf : SchemaFiles files) (m m' : Machine)
    (h : docFiles std md checked out m files = (.success, m')) (f dir : Path) (n : Text) (hn : n ≠ []) (hff : f ∈ files)
    (hfe : f = dir ++ [(n ++ ".mabo".toList) ++ ".mabo".toList]) :
    SchemaName (out ++ [n ++ ".mabo".toList]) ∧ m'.tree (out ++ [n ++ ".mabo".toList]) = some .dir ∧
    ∀ again, SchemaFiles again → out ++ [n ++ ".mabo".toList] ∈ again →
      (docFiles std md checked out (undisturbed m'.tree) again).1 ≠ .success := by
  have hdirs : m'.tree (out ++ [n ++ ".mabo".toList]) = some .dir := by
    obtain ⟨src, s, u, h1, h2, h3, h4⟩ := (C79_success std md checked out files hf m m' h).1 f hff
    obtain ⟨text, ht⟩ : ∃ text, (Doc.join (Doc.join out (nameOf f).toList) ((nameOf f).toList ++ "/index.html".toList), some text) ∈
        Doc.htmlSchema std md checked out (nameOf f) u := ⟨_, List.mem_cons_self ..⟩
    have hpg : PageOf std md checked out m.tree f _ text := ⟨src, s, u, h1, h2, h3, ht⟩
    refine C79_directories std md checked out files hf m m' h _ _ text ⟨f, hff, hpg⟩ ⟨by simp, ?_⟩
    obtain ⟨dirs, k, e, _⟩ := pageOf_place (hf f hff).1 (hf f hff).2 hpg
    have hname : (nameOf f).toList = n ++ ".mabo".toList := by
      have h1 : nameOf f = String.ofList (Cli.stem ((n ++ ".mabo".toList) ++ ".mabo".toList)) := by
        rw [hfe]
        simp only [nameOf, List.getLast?_append, List.getLast?_singleton, Option.some_or]
      rw [h1, Cli.stem_mabo (by simp), String.toList_ofList]
    exact ⟨(nameOf f).toList :: (dirs ++ [k ++ ".html".toList]), by simp, by
      rw [e, hname]; simp only [List.append_assoc, List.cons_append, List.nil_append]⟩
  exact ⟨⟨out, n, hn, rfl⟩, hdirs, fun again ha hm => C79_directory_selected std md checked out again ha _ _ hm hdirs⟩

/-! ### Concrete cases -/

/-- A project with a schema, another file in the way of nothing, and an old page. -/
noncomputable def docTree : Tree := fun p =>
  if p = ["a.mabo".toList] then some (.file "mod m { struct A { x: u8 @2 } }".toList.utf8Encode)
  else if p = ["docs".toList] then some .dir
  else if p = ["docs".toList, "notes.txt".toList] then some (.file "mine".toList.utf8Encode)
  else none

theorem docTree_read : Tree.read docTree ["a.mabo".toList] = some "mod m { struct A { x: u8 @2 } }".toList := by
  have h : docTree ["a.mabo".toList] = some (.file "mod m { struct A { x: u8 @2 } }".toList.utf8Encode) := if_pos rfl
  unfold Tree.read
  rw [h]
  show (List.utf8Encode _).utf8Decode?.map Array.toList = _
  rw [List.utf8Decode?_utf8Encode]
  rfl

/-- The places of the pages. -/
theorem docTree_pages : ∃ s u, Parse.parseSchema C37_std "mod m { struct A { x: u8 @2 } }".toList = some s ∧
    Simplify.simplifySchema true s = some u ∧
    (∀ x ∈ Doc.htmlSchema C37_std C76_md true ["docs".toList] (nameOf ["a.mabo".toList]) u, x.2.isSome = true) ∧
    (Doc.htmlSchema C37_std C76_md true ["docs".toList] (nameOf ["a.mabo".toList]) u).map Prod.fst = [
      ["docs".toList, "a".toList, "a".toList, "index.html".toList],
      ["docs".toList, "a".toList, "a".toList, "m".toList, "index.html".toList],
      ["docs".toList, "a".toList, "a".toList, "m".toList, "struct.A.html".toList]] := by
  have h : (match Parse.parseSchema C37_std "mod m { struct A { x: u8 @2 } }".toList with
    | none => false
    | some s => match Simplify.simplifySchema true s with
      | none => false
      | some u => decide ((Doc.htmlSchema C37_std C76_md true ["docs".toList] (nameOf ["a.mabo".toList]) u).map
          (fun x => (x.1, x.2.isSome)) = [
      (["docs".toList, "a".toList, "a".toList, "index.html".toList], true),
      (["docs".toList, "a".toList, "a".toList, "m".toList, "index.html".toList], true),
      (["docs".toList, "a".toList, "a".toList, "m".toList, "struct.A.html".toList], true)])) = true := by decide +kernel
  cases h1 : Parse.parseSchema C37_std "mod m { struct A { x: u8 @2 } }".toList with
  | none => rw [h1] at h; cases h
  | some s =>
    simp only [h1] at h
    cases h2 : Simplify.simplifySchema true s with
    | none => rw [h2] at h; cases h
    | some u =>
      rw [h2] at h
      have h := of_decide_eq_true h
      refine ⟨s, u, rfl, h2, fun x hx => ?_, ?_⟩
      · have hm := List.mem_map_of_mem (f := fun x : List Text × Option Text => (x.1, x.2.isSome)) hx
        rw [h] at hm
        simp only [List.mem_cons, List.not_mem_nil, or_false] at hm
        rcases hm with e | e | e <;> exact (congrArg Prod.snd e)
      · have := congrArg (List.map Prod.fst) h
        rw [List.map_map] at this
        exact this

/-- The command succeeds on it … -/
theorem C79_example : SchemaFiles [["a.mabo".toList]] ∧
    (docFiles C37_std C76_md true ["docs".toList] (undisturbed docTree) [["a.mabo".toList]]).1 = .success := by
  have hf : SchemaFiles [["a.mabo".toList]] := by
    intro f hf
    rw [List.mem_singleton.1 hf]
    exact ⟨⟨[], ['a'], by decide, rfl⟩, by decide⟩
  refine ⟨hf, (C79_exit _ _ _ _ _ hf _).2 ⟨fun f h => ?_, fun q text h => ?_⟩⟩
  · rw [List.mem_singleton.1 h]
    obtain ⟨s, u, h1, h2, h3, _⟩ := docTree_pages
    exact ⟨_, s, u, docTree_read, h1, h2, h3⟩
  · obtain ⟨f, hff, dirs, n, e, _⟩ := C79_places _ _ _ _ _ hf _ q text h
    rw [List.mem_singleton.1 hff] at e
    have hlen : 4 ≤ q.length := by rw [e]; simp
    refine ⟨fun hd => ?_, fun p b ⟨_, r, hr, hq⟩ hp => ?_⟩
    · unfold docTree at hd
      split at hd
      · cases hd
      · split at hd
        · next _ e' => rw [e'] at hlen; exact absurd hlen (by decide)
        · split at hd <;> cases hd
    · have hout : q = ["docs".toList] ++ ["a".toList] ++ ("a".toList :: (dirs ++ [n ++ ".html".toList])) := e
      unfold docTree at hp
      split at hp
      · next e' => rw [e', e] at hq; injection hq with hq _; exact absurd hq (by decide)
      · split at hp
        · cases hp
        · split at hp
          · next e' =>
            rw [e', hout] at hq
            injection hq with _ hq
            injection hq with hq _
            exact absurd hq (by decide)
          · cases hp

/-- … and leaves the other files in the output directory. -/
theorem C79_example_kept : (docFiles C37_std C76_md true ["docs".toList] (undisturbed docTree) [["a.mabo".toList]]).2.tree
      ["docs".toList, "notes.txt".toList] = some (.file "mine".toList.utf8Encode) := by
  have h : docTree ["docs".toList, "notes.txt".toList] = some (.file "mine".toList.utf8Encode) := by
    unfold docTree; rw [if_neg (by decide), if_neg (by decide), if_pos rfl]
  generalize hr : docFiles C37_std C76_md true ["docs".toList] (undisturbed docTree) [["a.mabo".toList]] = r
  refine (C79_sources_kept _ _ _ _ _ C79_example.1 (undisturbed docTree) r.2 r.1 hr _ (fun dir n e => ?_) ?_).trans h
  · have e' : ["docs".toList] ++ ["notes.txt".toList] = dir ++ [n ++ ".html".toList] := e
    have := (List.append_inj' e' rfl).2
    injection this with this
    have e' : "notes".toList ++ ".txt".toList = n ++ ".htm".toList ++ "l".toList := by
      rw [List.append_assoc]; exact this
    have e' : "notes.tx".toList ++ ['t'] = n ++ ".htm".toList ++ ['l'] := e'
    exact absurd (List.append_inj' e' rfl).2 (by decide)
  · rw [show (undisturbed docTree).tree = docTree from rfl, h]; exact nofun

/-- A run that is interrupted when the first page has been opened leaves an empty file in its place. -/
theorem C79_example_interrupted : ∃ m, docFiles C37_std C76_md true ["docs".toList] ⟨docTree, [.done, .done, .cut 0]⟩ [["a.mabo".toList]] =
    (.failure, m) ∧ m.tree ["docs".toList, "a".toList, "a".toList, "index.html".toList] = some (.file ByteArray.empty) := by
  obtain ⟨s, u, h1, h2, h3, h4⟩ := docTree_pages
  cases hp : rendered (Doc.htmlSchema C37_std C76_md true ["docs".toList] (nameOf ["a.mabo".toList]) u) with
  | none =>
    obtain ⟨x, hx, e⟩ := rendered_none hp
    rw [h3 x hx] at e; cases e
  | some pages =>
    have h5 := rendered_some hp
    rw [h5, List.map_map] at h4
    cases pages with
    | nil => cases h4
    | cons x pages =>
      obtain ⟨q, text⟩ := x
      injection h4 with h4 _
      have h4 : q = ["docs".toList, "a".toList, "a".toList, "index.html".toList] := h4
      subst h4
      have n1 : docTree ["docs".toList, "a".toList] = none := by
        unfold docTree; rw [if_neg (by decide), if_neg (by decide), if_neg (by decide)]
      have n2 : docTree ["docs".toList, "a".toList, "a".toList] = none := by
        unfold docTree; rw [if_neg (by decide), if_neg (by decide), if_neg (by decide)]
      have n3 : docTree ["docs".toList, "a".toList, "a".toList, "index.html".toList] = none := by
        unfold docTree; rw [if_neg (by decide), if_neg (by decide), if_neg (by decide)]
      have n0 : docTree ["docs".toList] = some .dir := by
        unfold docTree; rw [if_neg (by decide), if_pos rfl]
      obtain ⟨m, hm⟩ : ∃ m, m = ((((⟨docTree, [.done, .done, .cut 0]⟩ : Machine).set ["docs".toList, "a".toList] .dir).set
          ["docs".toList, "a".toList, "a".toList] .dir).set ["docs".toList, "a".toList, "a".toList, "index.html".toList]
          (.file (text.utf8Encode.extract 0 0))) := ⟨_, rfl⟩
      have hw : writePages ⟨docTree, [.done, .done, .cut 0]⟩
          ((["docs".toList, "a".toList, "a".toList, "index.html".toList], text) :: pages) = (false, m) := by
        rw [hm]
        simp only [writePages, List.dropLast, makeDirs, List.nil_append, List.cons_append, n0, n1, Machine.fault, Machine.set,
          List.headD, List.tail, n2, n3, writeFile, List.cons.injEq, reduceCtorEq, and_false, if_false]
      refine ⟨m, ?_, ?_⟩
      · rw [docFiles]
        rw [show Tree.read (⟨docTree, [.done, .done, .cut 0]⟩ : Machine).tree ["a.mabo".toList] = _ from docTree_read]
        simp only [h1, h2, hp, hw]
      · rw [hm]
        simp only [Machine.set, if_true]
        rw [ByteArray.extract_same]

end Mabo.Props
