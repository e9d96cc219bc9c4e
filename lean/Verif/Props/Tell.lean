import Verif.Spec.Tell
import Verif.Props.Diagnostics
import Verif.Props.ResolveLabels
import Verif.Props.Report
import Verif.Props.Build
/-!
C81: what is told about a project that is rejected.
-/
namespace Mabo.Props
open Mabo.Tell Mabo.Spec.Tell
open Mabo.Spec Mabo.Spec.Doc Mabo.Spec.Diag
open Mabo.Lsp (Finding Env Position)
open Mabo.Parse (Text)

/-- No number in the files is so large that the validator panics. -/
def TextsFit (env : Env) (inputs : List Input) : Prop := ∀ i ∈ inputs, NumbersFit env i.text

/-- What is told about one bad file. -/
inductive TellsOf (env : Env) (i : Input) : Told → Prop
  | syntax {r : Failing.Report} : Parse.parseSchema env.std i.text = none → Failing.report env.std i.text = some r →
      TellsOf env i (.syntax i.path ⟨i.path, i.text⟩ r)
  | invalid {s : Spanned.Schema} {f : Finding} : Spanned.parseSchema env.std i.text = some s → ¬ ValidSchema s.erase →
      Lsp.Spans.validateSchema env.checked env.pick s = .err f →
      TellsOf env i (.invalid i.path (chain env.focus f.error) (labels f))

/-- The loop that loads the files. -/
theorem load_exact (env : Env) (hpick : PickContract env.pick) : ∀ (inputs : List Input), TextsFit env inputs →
    ((∀ i ∈ inputs, FileOk env.std i) ∧ ∃ files, load env inputs = .ok files ∧
        files.map (·.1) = inputs.map (·.stem) ∧ (∀ v ∈ files, ∃ i ∈ inputs, v.2.path = some i.path ∧ v.2.source = i.text) ∧
        (∀ v ∈ files, Spanned.parseSchema env.std v.2.source = some v.2.schema) ∧
        (∀ v ∈ files, Compiler.validateSchema env.checked v.2.schema.erase = .ok)) ∨
    ∃ pre i post t, inputs = pre ++ i :: post ∧ (∀ j ∈ pre, FileOk env.std j) ∧ ¬ FileOk env.std i ∧
      load env inputs = .told t ∧ TellsOf env i t
  | [], _ => .inl ⟨nofun, [], rfl, rfl, nofun, nofun, nofun⟩
  | i :: rest, hfit => by
    cases hp : Parse.parseSchema env.std i.text with
    | none =>
      have hs := spanned_none hp
      have hr : (Failing.report env.std i.text) ≠ none := fun hn => by
        have := (C78_reported env.std i.text).1 hn
        rw [hp] at this
        cases this
      cases hrep : Failing.report env.std i.text with
      | none => exact absurd hrep hr
      | some r =>
        refine .inr ⟨[], i, rest, .syntax i.path ⟨i.path, i.text⟩ r, rfl, nofun, ?_, ?_, .syntax hp hrep⟩
        · rintro ⟨s, hs', _⟩
          rw [hp] at hs'
          cases hs'
        · simp only [load, hs, hrep]
    | some schema =>
      obtain ⟨s, hs, rfl⟩ := spanned_of hp
      have hsame := Lsp.Spans.validateSchema_same hpick.1 hpick.2 env.checked s
      have hno := fun hc => hfit i (List.mem_cons_self ..) hc _ hp
      by_cases hv : ValidSchema s.erase
      · have hok := (C25_validate_exact env.checked s.erase).2 ⟨hv, hno⟩
        rw [hok] at hsame
        generalize hc : Lsp.Spans.validateSchema env.checked env.pick s = c at hsame
        cases hsame
        rcases load_exact env hpick rest (fun j hj => hfit j (List.mem_cons_of_mem _ hj)) with
          ⟨h1, files, h2, h3, h4, h5, h6⟩ | ⟨pre, j, post, t, h1, h2, h3, h4, h5⟩
        · refine .inl ⟨?_, (i.stem, ⟨some i.path, i.text, s⟩) :: files, ?_, ?_, ?_, ?_, ?_⟩
          · intro j hj
            rcases List.mem_cons.1 hj with rfl | hj
            · exact ⟨_, hp, hv⟩
            · exact h1 j hj
          · simp only [load, hs, hc, h2]
          · rw [List.map_cons, List.map_cons, h3]
          · intro v hv'
            rcases List.mem_cons.1 hv' with rfl | hv'
            · exact ⟨i, List.mem_cons_self .., rfl, rfl⟩
            · obtain ⟨j, hj, h⟩ := h4 v hv'
              exact ⟨j, List.mem_cons_of_mem _ hj, h⟩
          · intro v hv'
            rcases List.mem_cons.1 hv' with rfl | hv'
            · exact hs
            · exact h5 v hv'
          · intro v hv'
            rcases List.mem_cons.1 hv' with rfl | hv'
            · exact hok
            · exact h6 v hv'
        · refine .inr ⟨i :: pre, j, post, t, by rw [h1, List.cons_append], ?_, h3, ?_, h5⟩
          · intro k hk
            rcases List.mem_cons.1 hk with rfl | hk
            · exact ⟨_, hp, hv⟩
            · exact h2 k hk
          · simp only [load, hs, hc, h4]
      · cases hf : Lsp.Spans.validateSchema env.checked env.pick s with
        | ok =>
          rw [hf] at hsame
          generalize hc : Compiler.validateSchema env.checked s.erase = c at hsame
          cases hsame
          exact absurd ((C25_validate_exact _ _).1 hc).1 hv
        | panic =>
          rw [hf] at hsame
          generalize hc : Compiler.validateSchema env.checked s.erase = c at hsame
          cases hsame
          obtain ⟨h1, d, l, ids, id, hd, hl, ha, hi, hm⟩ := C24_panic_only_at_max _ _ hc
          exact absurd hm (hno h1 d hd l hl ids ha id hi)
        | err f =>
          refine .inr ⟨[], i, rest, _, rfl, nofun, ?_, ?_, .invalid hs hv hf⟩
          · rintro ⟨s', hs', hv'⟩
            rw [hp] at hs'
            cases hs'
            exact hv hv'
          · simp only [load, hs, hf]

/-- What is told names a file: the first one that is no valid schema, in its own words if it is no schema (C78 is about this report), as
the validator's error otherwise. If all files are fine, it is an error of the resolver, and the source it shows is that of one of the
files (C77 says which). -/
theorem C81_told_partial (env : Env) (hpick : PickContract env.pick) (style : Labels.Style) (order : Labels.Order)
    (inputs : List Input) (hfit : TextsFit env inputs) (hnames : (inputs.map (·.stem)).Nodup) (t : Told)
    (h : build env style order inputs = .told t) :
    (∃ i, FirstBad env.std inputs i ∧ path t = i.path ∧
      ((Parse.parseSchema env.std i.text = none ∧ ∃ r, Failing.report env.std i.text = some r ∧ t = .syntax i.path ⟨i.path, i.text⟩ r) ∨
       ((Parse.parseSchema env.std i.text).isSome = true ∧ ∃ ms ls, t = .invalid i.path ms ls))) ∨
    ((∀ i ∈ inputs, FileOk env.std i) ∧ ∃ r, t = .unresolved "" r ∧ ∃ i ∈ inputs, r.source = ⟨i.path, i.text⟩) := by
  rcases load_exact env hpick inputs hfit with ⟨h1, files, h2, h3, h4, h5, h6⟩ | ⟨pre, i, post, t', h1, h2, h3, h4, h5⟩
  · refine .inr ⟨h1, ?_⟩
    simp only [build, h2] at h
    cases hs : Labels.schemas order files with
    | ok => rw [hs] at h; cases h
    | panic => rw [hs] at h; cases h
    | err e =>
      rw [hs] at h
      cases h
      refine ⟨_, rfl, ?_⟩
      have hr : Mabo.Spec.Labels.Ready env.std files := ⟨by rw [h3]; exact hnames, h5, fun v hv => ⟨_, h6 v hv⟩⟩
      obtain ⟨_, _, hp⟩ := C77_labels_partial env.std files hr
      obtain ⟨stem, f, hf, hsrc, _⟩ := hp style order e hs
      obtain ⟨i, hi, h7, h8⟩ := h4 _ hf
      refine ⟨i, hi, hsrc.trans ?_⟩
      rw [h7, h8]
      rfl
  · left
    simp only [build, h4] at h
    cases h
    refine ⟨i, ⟨pre, post, h1, h2, h3⟩, ?_⟩
    cases h5 with
    | «syntax» hp hr => exact ⟨rfl, .inl ⟨hp, _, hr, rfl⟩⟩
    | invalid hs _ _ =>
      refine ⟨rfl, .inr ⟨?_, _, _, rfl⟩⟩
      rw [← Spanned.erase_parseSchema, hs]
      rfl

/-- Nothing is told exactly if all files are valid schemas and all names resolve. -/
theorem C81_accepted (env : Env) (hpick : PickContract env.pick) (style : Labels.Style) (order : Labels.Order)
    (inputs : List Input) (hfit : TextsFit env inputs) :
    (∃ files, build env style order inputs = .ok files) ↔ (∀ i ∈ inputs, FileOk env.std i) ∧
      ∃ files, load env inputs = .ok files ∧ Resolve.resolveSchemas order.toOrder (Mabo.Spec.Labels.schemasOf files) = .ok := by
  rcases load_exact env hpick inputs hfit with ⟨h1, files, h2, _⟩ | ⟨pre, i, post, t', h1, h2, h3, h4, _⟩
  · have he := C77_same_errors order files
    simp only [build, h2]
    constructor
    · rintro ⟨fs, h⟩
      refine ⟨h1, files, rfl, ?_⟩
      cases hs : Labels.schemas order files with
      | ok => rw [hs] at he; exact he.symm
      | err e => rw [hs] at h; cases h
      | panic => rw [hs] at h; cases h
    · rintro ⟨_, fs, hfs, h⟩
      cases hfs
      rw [h] at he
      cases hs : Labels.schemas order files with
      | ok => exact ⟨_, rfl⟩
      | err e => rw [hs] at he; cases he
      | panic => rw [hs] at he; cases he
  · simp only [build, h4]
    constructor
    · rintro ⟨_, h⟩; cases h
    · rintro ⟨h, _⟩
      exact absurd (h i (by rw [h1]; exact List.mem_append_right _ (List.mem_cons_self ..))) h3

theorem expectRange_get {position : Nat → Option Position} {text : Text} {s : Spanned.Span} {r : Position × Position}
    (h : Lsp.expectRange position text s = .ok r) : Lsp.getRange position text s = .ok r := by
  unfold Lsp.expectRange at h
  cases hg : Lsp.getRange position text s with
  | ok r' => rw [hg] at h; cases h; rfl
  | error => rw [hg] at h; cases h
  | panic => rw [hg] at h; cases h

theorem chain_last (focus : String → String) (e : Compiler.ValidateError) : (chain focus e).getLast? = some (Lsp.errorMessage focus e) := by
  simp only [chain, List.getLast?_append, List.getLast?_singleton, Option.some_or]

/-- The build script and the editor say the same about an invalid schema, for every encoding of positions: the same message, and labels
with the same ranges. (C51 says that they are right.) -/
theorem C81_same_as_editor {Uri : Type} (enc : Encoding) (position : Text → Nat → Option Position) (hp : PositionContract enc position)
    (env : Env) (hpick : PickContract env.pick) (style : Labels.Style) (order : Labels.Order) (inputs : List Input)
    (hfit : TextsFit env inputs) (p : String) (ms : List String) (ls : List (String × Spanned.Span))
    (h : build env style order inputs = .told (.invalid p ms ls)) (file : Uri) :
    ∃ i d, FirstBad env.std inputs i ∧ p = i.path ∧ Lsp.diagnose env position i.text i.text file = .ok (some d) ∧
      SameAs (position i.text) i.text file ms ls d := by
  rcases load_exact env hpick inputs hfit with ⟨h1, files, h2, _⟩ | ⟨pre, i, post, t', h1, h2, h3, h4, h5⟩
  · simp only [build, h2] at h
    cases hs : Labels.schemas order files <;> rw [hs] at h <;> cases h
  · simp only [build, h4] at h
    cases h
    cases h5 with
    | @invalid s f hs hv hf =>
      obtain ⟨d, hd, hrep⟩ := reports_finding (file := file) hp env hpick hs hf
      refine ⟨i, d, ⟨pre, post, h1, h2, h3⟩, rfl, by simp only [Lsp.diagnose, hs, hf, hd, Lsp.Outcome.bind], ?_⟩
      obtain ⟨error, first, second⟩ := f
      cases first with
      | none =>
        simp only [Lsp.findingDiagnostic] at hd
        cases he : Lsp.expectRange (position i.text) i.text second with
        | panic => rw [he] at hd; cases hd
        | ok r =>
          rw [he] at hd
          cases hd
          exact ⟨chain_last .., .inl ⟨second, rfl, expectRange_get he, rfl⟩⟩
      | some first =>
        simp only [Lsp.findingDiagnostic] at hd
        cases he : Lsp.expectRange (position i.text) i.text second with
        | panic => rw [he] at hd; cases hd
        | ok r =>
          cases hf' : Lsp.expectRange (position i.text) i.text first with
          | panic => rw [he, hf'] at hd; cases hd
          | ok r' =>
            rw [he, hf'] at hd
            cases hd
            exact ⟨chain_last .., .inr ⟨first, second, r', rfl, expectRange_get he, expectRange_get hf', rfl⟩⟩

/-! ### What is not told -/

/-- Whatever is wrong with a schema that can be parsed: the report quotes no source code, so that none of its labels is shown. -/
theorem C81_fails_for_places (env : Env) (hpick : PickContract env.pick) (style : Labels.Style) (order : Labels.Order)
    (inputs : List Input) (hfit : TextsFit env inputs) (i : Input) (hi : FirstBad env.std inputs i)
    (hp : (Parse.parseSchema env.std i.text).isSome = true) :
    ∃ t, build env style order inputs = .told t ∧ quoted t = none := by
  obtain ⟨pre, post, rfl, hpre, hbad⟩ := hi
  rcases load_exact env hpick _ hfit with ⟨h1, _⟩ | ⟨pre', i', post', t, h1, h2, h3, h4, h5⟩
  · exact absurd (h1 i (List.mem_append_right _ (List.mem_cons_self ..))) hbad
  · have hsame : i = i' := by
      have : ∀ (a b : List Input), (∀ j ∈ a, FileOk env.std j) → (∀ j ∈ b, FileOk env.std j) → ∀ c d,
          a ++ i :: c = b ++ i' :: d → i = i' := by
        intro a
        induction a with
        | nil =>
          intro b _ hb c d he
          cases b with
          | nil => injection he
          | cons x b => injection he with e _; exact absurd (e ▸ hb x (List.mem_cons_self ..)) hbad
        | cons x a ih =>
          intro b ha hb c d he
          cases b with
          | nil => injection he with e _; exact absurd (e ▸ ha x (List.mem_cons_self ..)) h3
          | cons y b =>
            injection he with _ e
            exact ih b (fun j hj => ha j (List.mem_cons_of_mem _ hj)) (fun j hj => hb j (List.mem_cons_of_mem _ hj)) c d e
      exact this pre pre' hpre h2 post post' h1
    subst hsame
    cases h5 with
    | «syntax» hn _ => rw [hn] at hp; cases hp
    | @invalid s f _ _ _ =>
      refine ⟨.invalid i.path (chain env.focus f.error) (labels f), ?_, rfl⟩
      simp only [build, h4]

/-- The Go tool does not even name the file: if the paths change, it prints the same. -/
theorem C81_fails_for_go (env : Env) (rename : String → String) (inputs : List Input) (p : String) (ms : List String)
    (ls : List (String × Spanned.Span)) (h : load env inputs = .told (.invalid p ms ls)) :
    ∃ t, load env (inputs.map fun i => { i with path := rename i.path }) = .told t ∧ goMessages t = some ms := by
  induction inputs with
  | nil => cases h
  | cons i rest ih =>
    simp only [load, List.map_cons] at h ⊢
    cases hs : Spanned.parseSchema env.std i.text with
    | none =>
      rw [hs] at h
      cases hr : Failing.report env.std i.text <;> (simp only [hr] at h; cases h)
    | some s =>
      simp only [hs] at h ⊢
      cases hv : Lsp.Spans.validateSchema env.checked env.pick s with
      | err f => simp only [hv] at h ⊢; cases h; exact ⟨_, rfl, rfl⟩
      | panic => simp only [hv] at h; cases h
      | ok =>
        simp only [hv] at h ⊢
        cases hl : load env rest with
        | ok fs => simp only [hl] at h; cases h
        | panic => simp only [hl] at h; cases h
        | told t =>
          simp only [hl] at h
          cases h
          obtain ⟨t', h1, h2⟩ := ih hl
          exact ⟨t', by rw [h1], h2⟩

/-- An error of the resolver is always reported for the file "". -/
theorem C81_fails_for_unresolved (env : Env) (style : Labels.Style) (order : Labels.Order) (inputs : List Input)
    (files : List (String × Labels.File)) (hl : load env inputs = .ok files) (e : Labels.Error)
    (he : Labels.schemas order files = .err e) : ∃ t, build env style order inputs = .told t ∧ path t = "" := by
  refine ⟨.unresolved "" (Labels.report style e), ?_, rfl⟩
  simp only [build, hl, he]

/-! ### Examples -/

/-- Two files; the second one has two structs of one name. -/
def C81_inputs : List Input := [⟨"/p/a.mabo", "a", "struct S(u8 @1)\n".toList⟩, ⟨"/p/b.mabo", "b", C51_text⟩]

theorem C81_first_ok : (Parse.parseSchema C39_std "struct S(u8 @1)\n".toList).any (fun s =>
    decide (Compiler.validateSchema true s = .ok)) = true := by decide +kernel

/-- A valid file in front does not matter. -/
theorem load_cons {env : Env} {i : Input} {rest : List Input} {s : Spanned.Schema} {t : Told}
    (hs : Spanned.parseSchema env.std i.text = some s) (hv : Lsp.Spans.validateSchema env.checked env.pick s = .ok)
    (hl : load env rest = .told t) : load env (i :: rest) = .told t := by simp only [load, hs, hv, hl]

theorem C81_example_after_first {rest : List Input} {t : Told} (h : load C51_env rest = .told t) :
    load C51_env (⟨"/p/a.mabo", "a", "struct S(u8 @1)\n".toList⟩ :: rest) = .told t := by
  have h1 := C81_first_ok
  cases hs : Parse.parseSchema C39_std "struct S(u8 @1)\n".toList with
  | none => rw [hs] at h1; exact nomatch h1
  | some schema =>
    obtain ⟨s, hs', rfl⟩ := spanned_of hs
    rw [hs] at h1
    have h1 : Compiler.validateSchema true s.erase = .ok := of_decide_eq_true h1
    have hsame := Lsp.Spans.validateSchema_same C51_pick.1 C51_pick.2 true s
    rw [h1] at hsame
    generalize hg : Lsp.Spans.validateSchema true C51_env.pick s = c at hsame
    cases hsame
    exact load_cons hs' hg h

/-- What is told about the second file, which has two structs of one name. -/
theorem C81_example : load C51_env C81_inputs = .told (.invalid "/p/b.mabo" (chain id (.duplicateName (.inModule "A")))
    [("first declared here", ⟨C51_text.drop 7, C51_text.drop 8⟩), ("used here again", ⟨C51_text.drop 26, C51_text.drop 27⟩)]) := by
  refine C81_example_after_first ?_
  have h := C51_first
  cases hs : Spanned.parseSchema C39_std C51_text with
  | none => rw [hs] at h; exact nomatch h
  | some s =>
    rw [hs, Option.map_some] at h
    have hs' : Spanned.parseSchema C51_env.std C51_text = some s := hs
    have hv : Lsp.Spans.validateSchema C51_env.checked C51_env.pick s = .err C51_finding := Option.some.inj h
    simp only [load, hs', hv]
    rfl

/-- A syntax error in the second file. -/
theorem C81_example_syntax : ∃ r, load C51_env [⟨"/p/a.mabo", "a", "struct S(u8 @1)\n".toList⟩, ⟨"/p/b.mabo", "b", "strukt".toList⟩] =
    .told (.syntax "/p/b.mabo" ⟨"/p/b.mabo", "strukt".toList⟩ r) := by
  have hn : (Spanned.parseSchema C39_std "strukt".toList).isNone = true := by decide +kernel
  have hn : Spanned.parseSchema C51_env.std "strukt".toList = none := Option.isNone_iff_eq_none.1 hn
  cases hr : Failing.report C51_env.std "strukt".toList with
  | none =>
    have := (C78_reported _ _).1 hr
    rw [← Spanned.erase_parseSchema, hn] at this
    cases this
  | some r => exact ⟨r, C81_example_after_first (by simp only [load, hn, hr])⟩

/-- The files of an example of C77 as input. -/
def C81_of (texts : List (String × String)) : List Input := texts.map fun v => ⟨v.1, v.1, v.2.toList⟩

theorem C81_load : ∀ {texts : List (String × String)} {files : List (String × Labels.File)}, C77_load texts = some files →
    (∀ v ∈ files, ∃ checked, Compiler.validateSchema checked v.2.schema.erase = .ok) →
    load { C51_env with checked := false } (C81_of texts) = .ok files
  | [], files, h, _ => by
    rw [C77_load, Option.some.injEq] at h
    subst h
    rfl
  | v :: rest, files, h, hv => by
    rw [C77_load, Option.bind_eq_some_iff] at h
    obtain ⟨f, h1, h⟩ := h
    obtain ⟨fs, h2, h3⟩ := Option.map_eq_some_iff.1 h
    rw [C77_file, Option.map_eq_some_iff] at h1
    obtain ⟨s, h1, h4⟩ := h1
    subst h3 h4
    have ih := C81_load h2 fun w hw => hv w (List.mem_cons_of_mem _ hw)
    obtain ⟨checked, hc⟩ := hv _ (List.mem_cons_self ..)
    have hc' : Compiler.validateSchema false s.erase = .ok :=
      (C25_validate_exact _ _).2 ⟨((C25_validate_exact _ _).1 hc).1, (nomatch ·)⟩
    have hsame := Lsp.Spans.validateSchema_same C51_pick.1 C51_pick.2 false s
    rw [hc'] at hsame
    generalize hg : Lsp.Spans.validateSchema false C51_env.pick s = c at hsame
    cases hsame
    have h1' : Spanned.parseSchema C51_env.std v.2.toList = some s := h1
    simp only [C81_of, List.map_cons, load, h1', hg]
    rw [C81_of] at ih
    rw [ih]

/-- An import of something that cannot be imported: the file "" is named, but the file "a" is shown. -/
theorem C81_example_unresolved : ∃ t, build { C51_env with checked := false } ⟨id, id⟩ C77_order (C81_of C77_alias) = .told t ∧
    path t = "" ∧ quoted t = some ⟨"a", "use b::T;\n".toList⟩ := by
  obtain ⟨files, e, h1, h2, h3, h4, _⟩ := C77_fails_for_imported_kinds
  have hl := C81_load h1 h2.valid
  refine ⟨.unresolved "" (Labels.report ⟨id, id⟩ e), ?_, rfl, congrArg some h4⟩
  simp only [build, hl, h3]

end Mabo.Props
