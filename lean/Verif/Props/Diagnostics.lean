import Verif.Lsp.DiagMain
import Verif.Props.Tokens
import Verif.Props.Validate
/-! Properties of the language server: C51 (diagnostics). -/
namespace Mabo.Props
open Mabo.Lsp Mabo.Spec Mabo.Spec.Doc Mabo.Spec.Diag
open Mabo.Ast (Schema)

variable {Uri : Type} [DecidableEq Uri]

/-! ## C51: diagnostics -/

/-- The parser of the language server and the one of the other tools accept the same texts. -/
theorem spanned_of {std : Parse.Std} {text : Text} {schema : Schema} (h : Parse.parseSchema std text = some schema) :
    ∃ s, Spanned.parseSchema std text = some s ∧ s.erase = schema := by
  have he := Spanned.erase_parseSchema std text
  rw [h] at he
  cases hs : Spanned.parseSchema std text with
  | none => rw [hs] at he; cases he
  | some s => rw [hs] at he; exact ⟨s, rfl, by cases he; rfl⟩

theorem spanned_none {std : Parse.Std} {text : Text} (h : Parse.parseSchema std text = none) :
    Spanned.parseSchema std text = none := by
  have he := Spanned.erase_parseSchema std text
  rw [h] at he
  cases hs : Spanned.parseSchema std text with
  | none => rfl
  | some s => rw [hs] at he; cases he

omit [DecidableEq Uri] in
/-- What a finding of the validator is turned into. -/
theorem reports_finding {enc : Encoding} {position : Text → Nat → Option Position} (hp : PositionContract enc position) (env : Env)
    (hpick : PickContract env.pick) {text : Text} {s : Spanned.Schema} (hs : Spanned.parseSchema env.std text = some s) {f : Finding}
    (hf : Spans.validateSchema env.checked env.pick s = .err f) (file : Uri) :
    ∃ d, findingDiagnostic env.focus (position text) text file f = .ok d ∧
      Reports enc env.std env.focus s.erase text (placesOf text s) file d := by
  obtain ⟨error, first, second⟩ := f
  obtain ⟨range, h1, h2⟩ := reported_schema (focus := env.focus) hp hs hpick.1 hf
  cases first with
  | none => exact ⟨⟨range, errorMessage env.focus error, []⟩, by simp only [findingDiagnostic, h1, Lsp.Outcome.bind], none, h2, rfl⟩
  | some first =>
    obtain ⟨r, h3, h4⟩ := h2
    exact ⟨⟨range, errorMessage env.focus error, [((file, r), "first used here")]⟩, by simp only [findingDiagnostic, h1, h3, Lsp.Outcome.bind], some r, h4, rfl⟩

omit [DecidableEq Uri] in
/-- Every schema file that can be parsed but is not valid, of any size: there is exactly one diagnostic, and it is right. The
tokens of the file have places in the text, in order and without overlap, each holding its text (`Placed`); the message and
the ranges of the diagnostic are those of something that is wrong with the schema (`Complaint`): it really is wrong, it is the
first such thing in its list, the message names it, the range covers exactly its tokens, and if something is used twice,
then the related information has the range of its first use. -/
theorem C51_diagnostic (enc : Encoding) (position : Text → Nat → Option Position) (hp : PositionContract enc position)
    (env : Env) (hpick : PickContract env.pick) (text : Text) (file : Uri) (schema : Schema)
    (h : Parse.parseSchema env.std text = some schema) (hv : ¬ ValidSchema schema)
    (ho : env.checked = true → NoIdOverflow schema) :
    ∃ d places, diagnose env position text text file = .ok (some d) ∧
      Placed [] text places ((definitionsItems env.std schema.definitions).map plain) ∧
      Reports enc env.std env.focus schema text places file d := by
  obtain ⟨s, hs, rfl⟩ := spanned_of h
  have hsame := Spans.validateSchema_same hpick.1 hpick.2 env.checked s
  cases hf : Spans.validateSchema env.checked env.pick s with
  | ok =>
    rw [hf] at hsame
    generalize hc : Compiler.validateSchema env.checked s.erase = c at hsame
    cases hsame
    exact absurd ((C25_validate_exact _ _).1 hc).1 hv
  | panic =>
    rw [hf] at hsame
    generalize hc : Compiler.validateSchema env.checked s.erase = c at hsame
    cases hsame
    obtain ⟨h1, d, l, ids, id, hd, hl, ha, hi, hm⟩ := C24_panic_only_at_max _ _ hc
    exact absurd hm (ho h1 d hd l hl ids ha id hi)
  | err f =>
    obtain ⟨d, h1, h2⟩ := reports_finding hp env hpick hs hf file
    refine ⟨d, placesOf text s, ?_, placed_schema hs, h2⟩
    simp only [diagnose, hs, hf, h1, Lsp.Outcome.bind]

omit [DecidableEq Uri] in
/-- A valid schema file has no diagnostic. -/
theorem C51_accepts (position : Text → Nat → Option Position) (env : Env) (hpick : PickContract env.pick) (index text : Text)
    (file : Uri) (schema : Schema) (h : Parse.parseSchema env.std text = some schema) (hv : ValidSchema schema)
    (ho : env.checked = true → NoIdOverflow schema) : diagnose env position index text file = .ok none := by
  obtain ⟨s, hs, rfl⟩ := spanned_of h
  have hsame := Spans.validateSchema_same hpick.1 hpick.2 env.checked s
  rw [(C25_validate_exact _ _).2 ⟨hv, ho⟩] at hsame
  generalize hc : Spans.validateSchema env.checked env.pick s = c at hsame
  cases hsame
  simp only [diagnose, hs, hc]

omit [DecidableEq Uri] in
/-- A file that cannot be parsed has exactly one diagnostic, at a place in the text. -/
theorem C51_unparsed (enc : Encoding) (position : Text → Nat → Option Position) (hp : PositionContract enc position)
    (env : Env) (hfail : FailureContract env.failure) (text : Text) (file : Uri)
    (h : Parse.parseSchema env.std text = none) :
    ∃ a b, text = a ++ b ∧ diagnose env position text text file =
      .ok (some ⟨(posOf enc a, posOf enc a), (env.failure text).2, []⟩) := by
  obtain ⟨a, ha⟩ := hfail text
  refine ⟨a, _, ha.symm, ?_⟩
  have := expectRange_ok hp (text := text) ha.symm ha.symm
  simp only [diagnose, spanned_none h, this, Lsp.Outcome.bind]

/-- No panic of the validator: with overflow checks, no number of a schema is the largest one. -/
def NumbersFit (env : Env) (text : Text) : Prop :=
  env.checked = true → ∀ schema, Parse.parseSchema env.std text = some schema → NoIdOverflow schema

omit [DecidableEq Uri] in
/-- The compilation of a file never stops the server, and it has a diagnostic exactly if it is no valid schema. -/
theorem C51_no_panic (enc : Encoding) (position : Text → Nat → Option Position) (hp : PositionContract enc position)
    (env : Env) (hpick : PickContract env.pick) (hfail : FailureContract env.failure) (text : Text) (file : Uri)
    (hfit : NumbersFit env text) :
    ∃ r, diagnose env position text text file = .ok r ∧
      (r = none ↔ ∃ schema, Parse.parseSchema env.std text = some schema ∧ ValidSchema schema) := by
  cases h : Parse.parseSchema env.std text with
  | none =>
    obtain ⟨a, b, _, h1⟩ := C51_unparsed enc position hp env hfail text file h
    exact ⟨_, h1, by simp⟩
  | some schema =>
    by_cases hv : ValidSchema schema
    · exact ⟨none, C51_accepts position env hpick text text file schema h hv (fun hc => hfit hc _ h), by simp [hv]⟩
    · obtain ⟨d, _, h1, _⟩ := C51_diagnostic enc position hp env hpick text file schema h hv (fun hc => hfit hc _ h)
      exact ⟨some d, h1, by simp [hv]⟩

/-! ### In a session -/

theorem shown_append (ps qs : List (Published Uri)) (u : Uri) :
    shown (ps ++ qs) u = (shown qs u).or (shown ps u) := by
  unfold shown
  rw [List.reverse_append, List.find?_append]
  cases List.find? (fun p : Published Uri => decide (p.uri = u)) qs.reverse <;> rfl

/-- What the client shows is up to date. -/
def UpToDate (env : Env) (position : Text → Nat → Option Position) (d : Docs Uri) (ps : List (Published Uri)) : Prop :=
  ∀ u t, d u = some t → ∃ r, diagnose env position t t u = .ok r ∧ shown ps u = some r.toList

theorem upToDate_set {env : Env} {position : Text → Nat → Option Position} {d : Docs Uri} {ps : List (Published Uri)}
    (h : UpToDate env position d ps) {u : Uri} {t : Text} {r : Option (Diagnostic Uri)} (hr : diagnose env position t t u = .ok r) :
    UpToDate env position (d.set u (some t)) (ps ++ [⟨u, r.toList⟩]) := by
  intro v s hv
  rw [shown_append]
  unfold Docs.set at hv
  by_cases e : v = u
  · rw [if_pos e] at hv
    cases hv
    subst e
    exact ⟨r, hr, by simp [shown]⟩
  · rw [if_neg e] at hv
    obtain ⟨r', h1, h2⟩ := h v s hv
    refine ⟨r', h1, ?_⟩
    rw [h2]
    simp [shown, Ne.symm e]

theorem publish_synced {env : Env} {position : Text → Nat → Option Position} {fs : Files Uri} {u : Uri} {t : Text}
    (hg : Lsp.get fs u = some (createFile t)) {r : Option (Diagnostic Uri)} (hr : diagnose env position t t u = .ok r) :
    publish env position fs u = .ok [⟨u, r.toList⟩] := by
  simp only [publish, hg, createFile, hr, Lsp.Outcome.bind]

/-- Orderly (see C46), and no document makes the validator panic. -/
def Tame (enc : Encoding) (env : Env) (d : Docs Uri) (n : Notification Uri) : Prop :=
  Orderly enc d n ∧ ∀ d', Sends enc d n d' → ∀ u t, d' u = some t → NumbersFit env t

theorem runPublish_ok {enc : Encoding} {offset : Text → Position → Option Nat} (ho : OffsetContract enc offset)
    {position : Text → Nat → Option Position} (hp : PositionContract enc position) {env : Env} (hpick : PickContract env.pick)
    (hfail : FailureContract env.failure) {d d' : Docs Uri} {ns : List (Notification Uri)}
    (hh : History enc (Tame enc env) d ns d') : ∀ {fs : Files Uri} {ps : List (Published Uri)}, Synced d fs →
    UpToDate env position d ps → ∃ fs' qs, runPublish env offset position fs ns = .ok (fs', qs) ∧ Synced d' fs' ∧
      UpToDate env position d' (ps ++ qs) := by
  induction hh with
  | nil d => intro fs ps h h'; exact ⟨fs, [], rfl, h, by rw [List.append_nil]; exact h'⟩
  | @cons d d1 d2 n ns hs ht _ ih =>
    intro fs ps h h'
    obtain ⟨fs1, h1, h2⟩ := step_synced ho h hs ht.1
    have key : ∃ q, stepPublish env offset position fs n = .ok (fs1, q) ∧ UpToDate env position d1 (ps ++ q) := by
      have hfit := ht.2 d1 hs
      cases hs with
      | «open» u t =>
        have hu : (d.set u (some t)) u = some t := by simp [Docs.set]
        obtain ⟨r, hr, _⟩ := C51_no_panic enc position hp env hpick hfail t u (hfit u t hu)
        refine ⟨_, ?_, upToDate_set h' hr⟩
        simp only [stepPublish, h1, Lsp.Outcome.bind, publish_synced (h2.2 u t hu) hr]
      | change u t t' chs _ _ =>
        have hu : (d.set u (some t')) u = some t' := by simp [Docs.set]
        obtain ⟨r, hr, _⟩ := C51_no_panic enc position hp env hpick hfail t' u (hfit u t' hu)
        refine ⟨_, ?_, upToDate_set h' hr⟩
        simp only [stepPublish, h1, Lsp.Outcome.bind, publish_synced (h2.2 u t' hu) hr]
      | close u =>
        refine ⟨[], by simp only [stepPublish, h1, Lsp.Outcome.bind], ?_⟩
        rw [List.append_nil]
        intro v s hv
        unfold Docs.set at hv
        by_cases e : v = u
        · rw [if_pos e] at hv; cases hv
        · rw [if_neg e] at hv; exact h' v s hv
      | delete us _ =>
        refine ⟨[], by simp only [stepPublish, h1, Lsp.Outcome.bind], ?_⟩
        rw [List.append_nil]; exact h'
    obtain ⟨q, h3, h4⟩ := key
    obtain ⟨fs2, qs, h5, h6, h7⟩ := ih h2 h4
    refine ⟨fs2, q ++ qs, ?_, h6, by rw [← List.append_assoc]; exact h7⟩
    simp only [runPublish, h3, Lsp.Outcome.bind, h5]

theorem history_fits {enc : Encoding} {env : Env} {d0 d : Docs Uri} {ns : List (Notification Uri)}
    (hh : History enc (Tame enc env) d0 ns d) : (∀ u t, d0 u = some t → NumbersFit env t) →
    ∀ u t, d u = some t → NumbersFit env t := by
  induction hh with
  | nil _ => exact fun h => h
  | cons hs ht _ ih => exact fun _ => ih (ht.2 _ hs)

/-- In a session: after every (orderly, see C46) history, what the client shows for every open document is the diagnostic of
its present text, or nothing if that is a valid schema. -/
theorem C51_in_session (enc : Encoding) (offset : Text → Position → Option Nat) (ho : OffsetContract enc offset)
    (position : Text → Nat → Option Position) (hp : PositionContract enc position) (env : Env) (hpick : PickContract env.pick)
    (hfail : FailureContract env.failure) (ns : List (Notification Uri)) (d : Docs Uri)
    (hh : History enc (Tame enc env) noDocs ns d) :
    ∃ fs ps, runPublish env offset position [] ns = .ok (fs, ps) ∧ ∀ u text, d u = some text →
      ∃ r, shown ps u = some r.toList ∧ diagnose env position text text u = .ok r ∧
        (r = none ↔ ∃ schema, Parse.parseSchema env.std text = some schema ∧ ValidSchema schema) := by
  obtain ⟨fs, ps, h1, _, h3⟩ := runPublish_ok ho hp hpick hfail hh (fs := []) (ps := [])
    ⟨fun _ _ h => (nomatch h), fun _ _ h => (nomatch h)⟩ (fun _ _ h => (nomatch h))
  refine ⟨fs, ps, h1, fun u text hu => ?_⟩
  obtain ⟨r, h4, h5⟩ := h3 u text hu
  refine ⟨r, h5, h4, ?_⟩
  have hfit : NumbersFit env text := history_fits hh (fun _ _ h => (nomatch h)) u text hu
  obtain ⟨r', h6, h7⟩ := C51_no_panic enc position hp env hpick hfail text u hfit
  rw [h4] at h6
  cases h6
  exact h7

/-- Closing or deleting a document publishes nothing: its diagnostics stay where they are, also those of a deleted file. -/
theorem C51_kept (env : Env) (offset : Text → Position → Option Nat) (position : Text → Nat → Option Position) (fs : Files Uri)
    (n : Notification Uri) (hn : (∃ u, n = .didClose u) ∨ ∃ us, n = .didDelete us) :
    ∃ fs', stepPublish env offset position fs n = .ok (fs', []) := by
  rcases hn with ⟨u, rfl⟩ | ⟨us, rfl⟩
  · exact ⟨fs, rfl⟩
  · exact ⟨_, rfl⟩

/-- The span of a type in the model (from its first to its last token) is the one that the parser records: all that it
consumed. -/
theorem C51_type_span {text rest : Text} {t : Spanned.Ty} (h : Spanned.parseType text = .ok t rest) :
    Spans.typeSpan t = ⟨text, rest⟩ := by
  obtain ⟨⟨a, ha, rfl⟩, b, hb, rfl⟩ := tight_parseType h
  simp only [Spans.typeSpan, ha, hb]

/-! ### An example -/

/-- The second struct has the name of the first one. -/
def C51_text : Text := "struct A(u8)\n/// 😀\nstruct A(u8 @1)\n".toList
/-- With overflow checks; the first element of a map is the one inserted first. -/
def C51_env : Env := ⟨C39_std, true, List.head?, id, fun t => (t, "no schema")⟩

theorem C51_pick : PickContract C51_env.pick := ⟨fun l a h => by cases l <;> simp_all [C51_env], fun l h => by
  cases l <;> simp_all [C51_env]⟩

theorem C51_failure : FailureContract C51_env.failure := fun t => List.suffix_refl t

theorem C51_invalid : (Parse.parseSchema C39_std C51_text).any (fun schema =>
    decide (Compiler.validateSchema true schema = .err (.duplicateName (.inModule "A")))) = true := by decide +kernel

/-- What the validator finds. -/
def C51_finding : Finding :=
  ⟨.duplicateName (.inModule "A"), some ⟨C51_text.drop 7, C51_text.drop 8⟩, ⟨C51_text.drop 26, C51_text.drop 27⟩⟩

theorem C51_first : ((Spanned.parseSchema C39_std C51_text).map fun s => Spans.validateSchema true List.head? s) =
    some (.err C51_finding) := by
  decide +kernel

theorem C51_ranges : expectRange (searchPosition .utf16 C51_text) C51_text ⟨C51_text.drop 7, C51_text.drop 8⟩ =
      .ok (⟨0, 7⟩, ⟨0, 8⟩) ∧
    expectRange (searchPosition .utf16 C51_text) C51_text ⟨C51_text.drop 26, C51_text.drop 27⟩ = .ok (⟨2, 7⟩, ⟨2, 8⟩) := by
  decide +kernel

omit [DecidableEq Uri] in
theorem diagnose_twice {env : Env} {position : Text → Nat → Option Position} {text : Text} {file : Uri} {s : Spanned.Schema}
    {e : Compiler.ValidateError} {first second : Spanned.Span} {r r' : Position × Position} {m : String}
    (hs : Spanned.parseSchema env.std text = some s)
    (h : Spans.validateSchema env.checked env.pick s = .err ⟨e, some first, second⟩)
    (h1 : expectRange (position text) text first = .ok r') (h2 : expectRange (position text) text second = .ok r)
    (h3 : errorMessage env.focus e = m) :
    diagnose env position text text file = .ok (some ⟨r, m, [((file, r'), "first used here")]⟩) := by
  simp only [diagnose, hs, h, findingDiagnostic, h1, h2, h3, Lsp.Outcome.bind]

/-- `C51_diagnostic` applies to the file (it is not valid), and this is the diagnostic, in UTF-16. -/
theorem C51_example : (∃ schema, Parse.parseSchema C39_std C51_text = some schema ∧ ¬ ValidSchema schema) ∧
    diagnose C51_env (searchPosition .utf16) C51_text C51_text 0 = .ok (some ⟨(⟨2, 7⟩, ⟨2, 8⟩),
      "duplicate definition name `A`", [((0, (⟨0, 7⟩, ⟨0, 8⟩)), "first used here")]⟩) := by
  refine ⟨?_, ?_⟩
  · have h := C51_invalid
    cases hs : Parse.parseSchema C39_std C51_text with
    | none => rw [hs] at h; cases h
    | some schema =>
      rw [hs] at h
      have h : Compiler.validateSchema true schema = .err (.duplicateName (.inModule "A")) := of_decide_eq_true h
      refine ⟨schema, rfl, fun hv => ?_⟩
      have h2 : Compiler.validateSchema false schema = .ok := (C25_validate_exact _ _).2 ⟨hv, (nomatch ·)⟩
      obtain ⟨ds, h3, h4⟩ := C26_reported_name _ _ _ h
      obtain ⟨i, j, h5, h6, h7, _⟩ := h4
      exact C26_scope_names_rejected false schema ds h3 (fun hd => by
        have := (List.getElem?_inj (by exact (List.getElem?_eq_some_iff.1 h7).1) hd).1 (h7.trans h6.symm)
        omega) h2
  · cases hs : Spanned.parseSchema C39_std C51_text with
    | none => have h := C51_first; rw [hs] at h; exact nomatch h
    | some s =>
      have h := C51_first
      rw [hs, Option.map_some] at h
      exact diagnose_twice (env := C51_env) hs (Option.some.inj h) C51_ranges.1 C51_ranges.2 (by decide +kernel)

end Mabo.Props
