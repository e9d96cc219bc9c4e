import Verif.Cli.DocExec
import Verif.Props.DocHtml
import Verif.Props.Doc
/-!
All operations of a run of `mabo doc`, and the places of its pages.
-/
namespace Mabo.DocRun
open Mabo.Parse (Text Std)
open Mabo.Doc (Markdown)
open Mabo.Cli (Path Fault isMabo)
open Mabo.Spec

section
variable (std : Std) (md : Markdown) (checked : Bool) (out : Path)

/-- The pages of a file, if it can be documented; otherwise how the run ends. -/
def pagesOf (t : Tree) (f : Path) : List (Path × Text) ⊕ End :=
  match Tree.read t f with
  | none => .inr .failure
  | some text =>
    match Parse.parseSchema std text with
    | none => .inr .failure
    | some s =>
      match Simplify.simplifySchema checked s with
      | none => .inr .panic
      | some u =>
        match rendered (Doc.htmlSchema std md checked out (nameOf f) u) with
        | none => .inr .panic
        | some pages => .inl pages

/-- The operations for the files, and how the run ends if they all succeed. -/
noncomputable def plan (t : Tree) : List Path → List Act × End
  | [] => ([], .success)
  | f :: rest =>
    match pagesOf std md checked out t f with
    | .inr e => ([], e)
    | .inl pages => (pages.flatMap pageActs ++ (plan t rest).1, (plan t rest).2)
end

variable {std : Std} {md : Markdown} {checked : Bool} {out : Path}

theorem rendered_some : ∀ {l : List (Path × Option Text)} {pages : List (Path × Text)}, rendered l = some pages →
    l = pages.map fun x => (x.1, some x.2)
  | [], pages, h => by injection h with h; subst h; rfl
  | (p, some t) :: l, pages, h => by
    rw [rendered] at h
    cases hr : rendered l with
    | none => rw [hr] at h; cases h
    | some ps =>
      rw [hr] at h
      injection h with h
      subst h
      rw [rendered_some hr]; rfl
  | (p, none) :: l, pages, h => by cases h

theorem rendered_none : ∀ {l : List (Path × Option Text)}, rendered l = none → ∃ x ∈ l, x.2.isSome = false
  | [], h => by cases h
  | (p, some t) :: l, h => by
    rw [rendered] at h
    cases hr : rendered l with
    | none => obtain ⟨x, hx, e⟩ := rendered_none hr; exact ⟨x, List.mem_cons_of_mem _ hx, e⟩
    | some ps => rw [hr] at h; cases h
  | (p, none) :: l, h => ⟨_, List.mem_cons_self .., rfl⟩

/-- The pages of a file. -/
theorem pagesOf_inl {t : Tree} {f : Path} {pages : List (Path × Text)} (h : pagesOf std md checked out t f = .inl pages) :
    CanDocument std md checked out t f ∧ ∀ q text, (q, text) ∈ pages ↔ PageOf std md checked out t f q text := by
  unfold pagesOf at h
  cases h1 : Tree.read t f with
  | none => rw [h1] at h; cases h
  | some src =>
    simp only [h1] at h
    cases h2 : Parse.parseSchema std src with
    | none => rw [h2] at h; cases h
    | some s =>
      simp only [h2] at h
      cases h3 : Simplify.simplifySchema checked s with
      | none => rw [h3] at h; cases h
      | some u =>
        simp only [h3] at h
        cases h4 : rendered (Doc.htmlSchema std md checked out (nameOf f) u) with
        | none => rw [h4] at h; cases h
        | some ps =>
          rw [h4] at h
          injection h with h
          subst h
          have h5 := rendered_some h4
          refine ⟨⟨src, s, u, h1, h2, h3, ?_⟩, fun q text => ⟨fun hq => ⟨src, s, u, h1, h2, h3, ?_⟩, ?_⟩⟩
          · rw [h5]
            intro x hx
            obtain ⟨y, _, rfl⟩ := List.mem_map.1 hx
            rfl
          · rw [h5]; exact List.mem_map.2 ⟨_, hq, rfl⟩
          · rintro ⟨src', s', u', e1, e2, e3, hm⟩
            rw [h1] at e1; injection e1 with e1; subst e1
            rw [h2] at e2; injection e2 with e2; subst e2
            rw [h3] at e3; injection e3 with e3; subst e3
            rw [h5] at hm
            obtain ⟨y, hy, e⟩ := List.mem_map.1 hm
            injection e with e e'
            injection e' with e'
            rw [← e, ← e']; exact hy

theorem pagesOf_inr {t : Tree} {f : Path} {e : End} (h : pagesOf std md checked out t f = .inr e) :
    e ≠ .success ∧ ¬ CanDocument std md checked out t f := by
  unfold pagesOf at h
  cases h1 : Tree.read t f with
  | none =>
    rw [h1] at h; injection h with h; subst h
    exact ⟨nofun, fun ⟨_, _, _, e1, _⟩ => by rw [h1] at e1; cases e1⟩
  | some src =>
    simp only [h1] at h
    cases h2 : Parse.parseSchema std src with
    | none =>
      rw [h2] at h; injection h with h; subst h
      refine ⟨nofun, fun ⟨_, _, _, e1, e2, _⟩ => ?_⟩
      rw [h1] at e1; injection e1 with e1; subst e1
      rw [h2] at e2; cases e2
    | some s =>
      simp only [h2] at h
      cases h3 : Simplify.simplifySchema checked s with
      | none =>
        rw [h3] at h; injection h with h; subst h
        refine ⟨nofun, fun ⟨_, _, _, e1, e2, e3, _⟩ => ?_⟩
        rw [h1] at e1; injection e1 with e1; subst e1
        rw [h2] at e2; injection e2 with e2; subst e2
        rw [h3] at e3; cases e3
      | some u =>
        simp only [h3] at h
        cases h4 : rendered (Doc.htmlSchema std md checked out (nameOf f) u) with
        | some ps => rw [h4] at h; cases h
        | none =>
          rw [h4] at h; injection h with h; subst h
          refine ⟨nofun, fun ⟨_, _, _, e1, e2, e3, hall⟩ => ?_⟩
          rw [h1] at e1; injection e1 with e1; subst e1
          rw [h2] at e2; injection e2 with e2; subst e2
          rw [h3] at e3; injection e3 with e3; subst e3
          obtain ⟨x, hx, e⟩ := rendered_none h4
          rw [hall x hx] at e; cases e

/-- One step of the loop. -/
theorem docFiles_cons (m : Machine) (f : Path) (rest : List Path) : docFiles std md checked out m (f :: rest) =
    match pagesOf std md checked out m.tree f with
    | .inr e => (e, m)
    | .inl pages =>
      match writePages m pages with
      | (false, m) => (.failure, m)
      | (true, m) => docFiles std md checked out m rest := by
  unfold pagesOf
  rw [docFiles]
  cases Tree.read m.tree f with
  | none => rfl
  | some src =>
    dsimp only
    cases Parse.parseSchema std src with
    | none => rfl
    | some s =>
      dsimp only
      cases Simplify.simplifySchema checked s with
      | none => rfl
      | some u =>
        dsimp only
        cases rendered (Doc.htmlSchema std md checked out (nameOf f) u) with
        | none => rfl
        | some ps => rfl

/-! ### The places of pages -/

theorem nameOf_schema {f : Path} (h : SchemaName f) (hn : ∀ n ∈ f, '/' ∉ n) : '/' ∉ (nameOf f).toList := by
  obtain ⟨dir, name, hne, rfl⟩ := h
  have h1 : nameOf (dir ++ [name ++ ".mabo".toList]) = String.ofList (Cli.stem (name ++ ".mabo".toList)) := by
    simp only [nameOf, List.getLast?_append, List.getLast?_singleton, Option.some_or]
  rw [h1, Cli.stem_mabo hne, String.toList_ofList]
  intro hm
  exact hn _ (List.mem_append_right _ (List.mem_singleton.2 rfl)) (List.mem_append_left _ hm)

theorem moduleAt_plain {s : Ast.Schema} (hw : DefsWf s.definitions) : ∀ {mods : List String} {ds : List Ast.Definition},
    ModuleAt s mods ds → DefsWf ds ∧ ∀ n ∈ mods, Doc.Plain n := by
  intro mods ds h
  induction h with
  | root => exact ⟨hw, nofun⟩
  | module _ hm ih =>
    have hd := Doc.defsWf_mem ih.1 _ hm
    refine ⟨?_, fun n hn => ?_⟩
    · rw [DefWf] at hd; exact hd.2.2
    · rcases List.mem_append.1 hn with hn | hn
      · exact ih.2 n hn
      · rw [List.mem_singleton.1 hn]; exact Doc.defName_plain hd rfl

/-- Where pages are. -/
theorem pageOf_place {t : Tree} {f q : Path} {text : Text} (hs : SchemaName f) (hn : ∀ n ∈ f, '/' ∉ n)
    (h : PageOf std md checked out t f q text) : ∃ (dirs : List Text) (n : Text),
    q = out ++ (nameOf f).toList :: (nameOf f).toList :: (dirs ++ [n ++ ".html".toList]) ∧ ∀ w ∈ dirs, '/' ∉ w ∧ '.' ∉ w := by
  obtain ⟨src, s, u, h1, h2, h3, hm⟩ := h
  have hplain := nameOf_schema hs hn
  have hdoc : Props.Documented std checked out (nameOf f) src s (Doc.docSchema std checked out (nameOf f) u) :=
    ⟨hplain, h2, by simp only [Doc.doc, h2, h3, List.append_nil]⟩
  obtain ⟨_, _, _, hw⟩ := Props.documented_inv hdoc
  have hq : q ∈ (Doc.docSchema std checked out (nameOf f) u).map Prod.fst := by
    have h4 := congrArg (List.map Prod.fst) (Props.C76_paths std md checked out (nameOf f) u)
    simp only [List.map_map] at h4
    have h5 : (Prod.fst ∘ fun x : List Text × Doc.Page => (x.1, x.2.nextId.isSome)) = Prod.fst := rfl
    have h6 : (Prod.fst ∘ fun x : List Text × Option Text => (x.1, x.2.isSome)) = Prod.fst := rfl
    rw [h5, h6] at h4
    rw [← h4]
    exact List.mem_map.2 ⟨_, hm, rfl⟩
  have plains {mods : List String} (hp : ∀ n ∈ mods, Doc.Plain n) : ∀ w ∈ mods.map String.toList, '/' ∉ w ∧ '.' ∉ w := by
    intro w hw
    obtain ⟨n, hn, rfl⟩ := List.mem_map.1 hw
    exact hp n hn
  rcases (Props.C53_pages hdoc q).1 hq with rfl | ⟨mods, ds, d, file, hat, hd, hf, rfl⟩
  · exact ⟨[], "index".toList, by simp only [docDir, List.append_assoc]; rfl, nofun⟩
  · obtain ⟨hwf, hp⟩ := moduleAt_plain hw.2 hat
    have one (a : Text) : ∃ (dirs : List Text) (n : Text), docDir out (nameOf f) mods ++ [a ++ ".html".toList] =
        out ++ (nameOf f).toList :: (nameOf f).toList :: (dirs ++ [n ++ ".html".toList]) ∧ ∀ w ∈ dirs, '/' ∉ w ∧ '.' ∉ w :=
      ⟨mods.map String.toList, a, by simp only [docDir, List.append_assoc, List.cons_append, List.nil_append], plains hp⟩
    cases d with
    | module c n ds' =>
      simp only [pageFile, Option.some.injEq] at hf
      subst hf
      refine ⟨mods.map String.toList ++ [n.toList], "index".toList, ?_, fun w hw => ?_⟩
      · simp only [docDir, List.append_assoc, List.cons_append, List.nil_append]; rfl
      · rcases List.mem_append.1 hw with hw | hw
        · exact plains hp w hw
        · rw [List.mem_singleton.1 hw]; exact Doc.defName_plain (Doc.defsWf_mem hwf _ hd) rfl
    | «import» i => cases hf
    | _ =>
      simp only [pageFile, Option.some.injEq] at hf
      subst hf
      exact one _

/-- A page is no schema file. -/
theorem page_not_schema {a : List Text} {n : Text} : ¬ SchemaName (a ++ [n ++ ".html".toList]) := by
  rintro ⟨dir, name, _, e⟩
  have h := (List.append_inj' e rfl).2
  injection h with h
  have := (List.append_inj' h rfl).2
  exact absurd this (by decide)

theorem pageOf_not_schema {t : Tree} {f q : Path} {text : Text} (hs : SchemaName f) (hn : ∀ n ∈ f, '/' ∉ n)
    (h : PageOf std md checked out t f q text) : ¬ SchemaName q := by
  obtain ⟨dirs, n, e, _⟩ := pageOf_place hs hn h
  have : q = (out ++ (nameOf f).toList :: (nameOf f).toList :: dirs) ++ [n ++ ".html".toList] := by rw [e]; simp
  rw [this]
  exact page_not_schema

/-- No page is in the place of a directory of another one. -/
theorem page_not_above {t : Tree} {files : List Path} (hf : SchemaFiles files) {p q : Path} {text text' : Text}
    (hp : IsPage std md checked out t files p text) (hq : IsPage std md checked out t files q text') : ¬ Above p q := by
  rintro ⟨_, r, hr, e⟩
  obtain ⟨f, hff, hp⟩ := hp
  obtain ⟨g, hg, hq⟩ := hq
  obtain ⟨dirs, n, e1, _⟩ := pageOf_place (hf f hff).1 (hf f hff).2 hp
  obtain ⟨dirs', n', e2, h2⟩ := pageOf_place (hf g hg).1 (hf g hg).2 hq
  rw [e1, e2, List.append_assoc] at e
  have e := List.append_cancel_left e
  simp only [List.cons_append] at e
  injection e with _ e
  injection e with _ e
  rw [List.append_assoc] at e
  have hm : n ++ ".html".toList ∈ dirs' := by
    have hr2 : r = r.dropLast ++ [r.getLast hr] := (List.dropLast_concat_getLast hr).symm
    rw [hr2] at e
    have e' : dirs' ++ [n' ++ ".html".toList] = (dirs ++ (n ++ ".html".toList) :: r.dropLast) ++ [r.getLast hr] := by
      rw [e]; simp
    rw [(List.append_inj' e' rfl).1]
    exact List.mem_append_right _ (List.mem_cons_self ..)
  exact (h2 _ hm).2 (List.mem_append_right _ (by decide))

/-! ### The operations -/

theorem mem_pageActs {a : Act} {q : Path} {text : Text} (hq : q ≠ []) : a ∈ pageActs (q, text) ↔
    a = .wr q text.utf8Encode ∨ ∃ p, Above p q ∧ a = .mk p := by
  rw [pageActs, List.mem_append, mem_dirActs, List.mem_singleton]
  constructor
  · rintro (⟨x, y, hx, e, rfl⟩ | rfl)
    · refine .inr ⟨x, ⟨hx, y ++ [q.getLast hq], by simp, ?_⟩, by rw [List.nil_append]⟩
      rw [← List.append_assoc, ← e]
      exact (List.dropLast_concat_getLast hq).symm
    · exact .inl rfl
  · rintro (rfl | ⟨p, ⟨hp, r, hr, e⟩, rfl⟩)
    · exact .inr rfl
    · refine .inl ⟨p, r.dropLast, hp, ?_, by rw [List.nil_append]⟩
      show q.dropLast = _
      rw [e, List.dropLast_append_of_ne_nil hr]

theorem page_ne_nil {t : Tree} {f q : Path} {text : Text} (hs : SchemaName f) (hn : ∀ n ∈ f, '/' ∉ n)
    (h : PageOf std md checked out t f q text) : q ≠ [] := by
  obtain ⟨dirs, n, e, _⟩ := pageOf_place hs hn h
  rw [e]; simp

/-- Every operation is for a page. -/
theorem plan_mem {t : Tree} : ∀ {files : List Path}, SchemaFiles files → ∀ {a : Act}, a ∈ (plan std md checked out t files).1 →
    ∃ q text, IsPage std md checked out t files q text ∧ (a = .wr q text.utf8Encode ∨ ∃ p, Above p q ∧ a = .mk p)
  | [], _, a, h => nomatch h
  | f :: rest, hf, a, h => by
    rw [plan] at h
    cases hp : pagesOf std md checked out t f with
    | inr e => rw [hp] at h; cases h
    | inl pages =>
      rw [hp] at h
      rcases List.mem_append.1 h with h | h
      · obtain ⟨⟨q, text⟩, hx, ha⟩ := List.mem_flatMap.1 h
        have hpg := ((pagesOf_inl hp).2 q text).1 hx
        have hff := hf f (List.mem_cons_self ..)
        exact ⟨q, text, ⟨f, List.mem_cons_self .., hpg⟩, (mem_pageActs (page_ne_nil hff.1 hff.2 hpg)).1 ha⟩
      · obtain ⟨q, text, ⟨g, hg, hpg⟩, ha⟩ := plan_mem (fun g hg => hf g (List.mem_cons_of_mem _ hg)) h
        exact ⟨q, text, ⟨g, List.mem_cons_of_mem _ hg, hpg⟩, ha⟩

/-- A plan that ends well has all operations for all pages. -/
theorem plan_success {t : Tree} : ∀ {files : List Path}, SchemaFiles files → (plan std md checked out t files).2 = .success →
    (∀ f ∈ files, CanDocument std md checked out t f) ∧ ∀ q text, IsPage std md checked out t files q text →
      .wr q text.utf8Encode ∈ (plan std md checked out t files).1 ∧
      ∀ p, Above p q → .mk p ∈ (plan std md checked out t files).1
  | [], _, _ => ⟨nofun, fun q text ⟨f, hf, _⟩ => nomatch hf⟩
  | f :: rest, hf, h => by
    rw [plan] at h ⊢
    cases hp : pagesOf std md checked out t f with
    | inr e => rw [hp] at h; exact absurd h (pagesOf_inr hp).1
    | inl pages =>
      rw [hp] at h
      obtain ⟨h1, h2⟩ := plan_success (fun g hg => hf g (List.mem_cons_of_mem _ hg)) h
      have hff := hf f (List.mem_cons_self ..)
      refine ⟨fun g hg => ?_, fun q text ⟨g, hg, hpg⟩ => ?_⟩
      · rcases List.mem_cons.1 hg with rfl | hg
        · exact (pagesOf_inl hp).1
        · exact h1 g hg
      · rcases List.mem_cons.1 hg with rfl | hg
        · have hm := ((pagesOf_inl hp).2 q text).2 hpg
          have hne := page_ne_nil hff.1 hff.2 hpg
          exact ⟨List.mem_append_left _ (List.mem_flatMap.2 ⟨_, hm, (mem_pageActs hne).2 (.inl rfl)⟩),
            fun p hp => List.mem_append_left _ (List.mem_flatMap.2 ⟨_, hm, (mem_pageActs hne).2 (.inr ⟨p, hp, rfl⟩)⟩)⟩
        · obtain ⟨h3, h4⟩ := h2 q text ⟨g, hg, hpg⟩
          exact ⟨List.mem_append_right _ h3, fun p hp => List.mem_append_right _ (h4 p hp)⟩

theorem plan_end {t : Tree} : ∀ {files : List Path}, (∀ f ∈ files, CanDocument std md checked out t f) →
    (plan std md checked out t files).2 = .success
  | [], _ => rfl
  | f :: rest, h => by
    rw [plan]
    cases hp : pagesOf std md checked out t f with
    | inr e => exact absurd (h f (List.mem_cons_self ..)) (pagesOf_inr hp).2
    | inl pages => exact plan_end fun g hg => h g (List.mem_cons_of_mem _ hg)

/-- The plan is made from what can be read. -/
theorem plan_congr {t t' : Tree} : ∀ {files : List Path}, (∀ f ∈ files, Tree.read t' f = Tree.read t f) →
    plan std md checked out t' files = plan std md checked out t files
  | [], _ => rfl
  | f :: rest, h => by
    have h1 : pagesOf std md checked out t' f = pagesOf std md checked out t f := by
      unfold pagesOf; rw [h f (List.mem_cons_self ..)]
    rw [plan, plan, h1, plan_congr fun g hg => h g (List.mem_cons_of_mem _ hg)]

/-- Schema files are not written. -/
theorem exec_read {r : Bool} {m m' : Machine} {as : List Act} (h : exec m as = (r, m')) {f : Path}
    (hf : ∀ b, .wr f b ∉ as) : Tree.read m'.tree f = Tree.read m.tree f := by
  unfold Tree.read
  rcases exec_frame h f with e | ⟨e1, e2, _⟩ | ⟨b, _, hb, _⟩
  · rw [e]
  · rw [e1, e2]
  · exact absurd hb (hf b)

/-- A run follows the plan made at its start. -/
theorem docFiles_plan : ∀ {files : List Path}, SchemaFiles files → ∀ (m : Machine), docFiles std md checked out m files =
    match exec m (plan std md checked out m.tree files).1 with
    | (false, m') => (.failure, m')
    | (true, m') => ((plan std md checked out m.tree files).2, m')
  | [], _, m => rfl
  | f :: rest, hf, m => by
    rw [docFiles_cons, plan]
    cases hp : pagesOf std md checked out m.tree f with
    | inr e => rfl
    | inl pages =>
      dsimp only
      rw [writePages_exec, exec_append]
      cases he : exec m (pages.flatMap pageActs) with
      | mk r m' =>
        cases r with
        | false => rfl
        | true =>
          dsimp only
          have hrest : SchemaFiles rest := fun g hg => hf g (List.mem_cons_of_mem _ hg)
          rw [docFiles_plan hrest m']
          have hff := hf f (List.mem_cons_self ..)
          have hsame : plan std md checked out m'.tree rest = plan std md checked out m.tree rest := by
            refine plan_congr fun g hg => exec_read he fun b hb => ?_
            obtain ⟨⟨q, text⟩, hx, ha⟩ := List.mem_flatMap.1 hb
            have hpg := ((pagesOf_inl hp).2 q text).1 hx
            rcases (mem_pageActs (page_ne_nil hff.1 hff.2 hpg)).1 ha with e | ⟨_, _, e⟩
            · injection e with e _
              subst e
              exact pageOf_not_schema hff.1 hff.2 hpg (hrest _ hg).1
            · cases e
          rw [hsame]

end Mabo.DocRun
