import Verif.Parser.ReportWhere
import Verif.Props.Errors
/-! Properties of the reports of syntax errors: C78. -/
namespace Mabo.Props
open Mabo.Failing Mabo.Spec Mabo.Spec.Errors Mabo.Spec.Report
open Mabo.Parse (Text Std)

/-! ## C78: the report of a syntax error shows where the error is -/

/-- There is a report exactly for the texts that are no schemas. -/
theorem C78_reported (std : Std) (text : Text) : report std text = none ↔ (Parse.parseSchema std text).isSome = true := by
  rw [← parseSchema_same, report]
  cases parseSchema std text with
  | ok s => exact ⟨fun _ => rfl, fun _ => rfl⟩
  | error e => exact ⟨fun h => (nomatch h), fun h => (nomatch h)⟩

theorem report_error {std : Std} {text : Text} {r : Failing.Report} (h : report std text = some r) :
    ∃ e, parseSchema std text = .error e ∧ r = schemaDiag text e ∧ Within text e := by
  rw [report] at h
  cases hp : parseSchema std text with
  | ok s => rw [hp] at h; cases h
  | error e =>
    rw [hp] at h
    cases h
    exact ⟨e, rfl, rfl, within_parseSchema std hp⟩

/-- Every label of the report, at any depth, is in the text: it starts between two characters of it and does not go beyond its
end. -/
theorem C78_inside (std : Std) (text : Text) (r : Failing.Report) (h : report std text = some r) (l : Label) (hl : HasLabel r l) :
    ∃ u v, text = u ++ v ∧ l.offset = Errors.bytes u ∧ l.length ≤ Errors.bytes v := by
  obtain ⟨e, he, rfl, hw⟩ := report_error h
  obtain ⟨a, ha, h1, h2⟩ := marks_schema e l hl
  obtain ⟨u, v, h3, h4, h5⟩ := rangeLabel_in (hw.1 a ha)
  exact ⟨u, v, h3, h1.trans h4, h2 ▸ h5⟩

/-- The reports are nested in each other in one line, and the innermost is at the place that the language server shows (C59): it has
a label there, with the message of the language server, or says the offset of this place. The message of the language server is
that of one of the reports, and what it says is the case at that place. -/
theorem C78_place (std : Std) (text : Text) (h : Parse.parseSchema std text = none) :
    ∃ r ms x u v, report std text = some r ∧ Trail r ms x ∧ text = u ++ v ∧ (failure std text).1 = v ∧
      (x = .mk ("Parser error at offset " ++ Nat.repr (Errors.bytes u)) none [] [] ∨
        ∃ code, x = .mk (failure std text).2 (some code) [⟨"Problematic character", Errors.bytes u, 0⟩] []) ∧
      (failure std text).2 ∈ ms ∧ Explains std u v (failure std text).2 ∧ InFirstBroken std text v := by
  obtain ⟨e, he⟩ := error_of h
  obtain ⟨u, v, h1, h2, h3, h4⟩ := C59_explained std text h
  have hw := within_parseSchema std he
  obtain ⟨ms, x, h5, h6, h7⟩ := leads_schema (text := text) (p := parserMessage text (schemaReport text e).1) e hw.2
  have hf : failure std text = schemaReport text e := by rw [Failing.failure, he]
  have hpm : parserMessage text (schemaReport text e).1 = "Parser error at offset " ++ Nat.repr (Errors.bytes u) := by
    rw [← hf, h2, h1]; exact parserMessage_eq _ _
  have hof : offsetOf text (schemaReport text e).1 = Errors.bytes u := by
    rw [← hf, h2, h1]; exact offsetOf_append _ _
  refine ⟨schemaDiag text e, ms, x, u, v, ?_, h5, h1, h2, ?_, ?_, h3, h4⟩
  · rw [report, he]
  · rcases h6 with rfl | ⟨c, rfl⟩
    · exact .inl (by rw [parserReport, hpm])
    · exact .inr ⟨c, by rw [variantReport, hof, hf]⟩
  · rw [hf]
    rcases List.mem_cons.1 h7 with h8 | h8
    · -- the message is the offset; it is then that of the innermost report or of one above
      rcases h6 with rfl | ⟨c, rfl⟩
      · rw [h8]; exact trail_last h5
      · exact trail_last h5
    · exact h8
where
  trail_last {r : Failing.Report} {ms : List String} {m : String} {c : Option String} {ls : List Label} {rs : List Failing.Report}
      (h : Trail r ms (.mk m c ls rs)) : m ∈ ms := by
    generalize hx : Failing.Report.mk m c ls rs = x at h
    induction h with
    | last => cases hx; exact List.mem_cons_self
    | next _ ih => exact List.mem_cons_of_mem _ (ih hx)

/-- A report has no label at all exactly if there is no keyword behind the definitions that can be read; then it is one line that
says the offset. -/
theorem C78_unlabelled (std : Std) (text : Text) (r : Failing.Report) (h : report std text = some r) :
    ((∀ l, ¬ HasLabel r l) ↔ StopsWithoutKeyword std text) ∧
    ((∀ l, ¬ HasLabel r l) → ∃ u v, text = u ++ v ∧ r = .mk ("Parser error at offset " ++ Nat.repr (Errors.bytes u)) none [] []) := by
  obtain ⟨e, he, rfl, hw⟩ := report_error h
  obtain ⟨body, ds, rest, hh, hr, hk⟩ := schema_kind std he
  constructor
  · constructor
    · intro hl
      rcases hk with ⟨hb, _⟩ | ⟨_, e', rfl, hne⟩
      · exact ⟨body, ds, rest, hh, hr, parseDefinition_back.1 hb⟩
      · exfalso
        have hs : ∀ {m c a x}, (∀ l, ¬ HasLabel (structReport' text m c a x) l) → False := fun h =>
          h _ ⟨_, _, _, _, .self, List.mem_cons_self⟩
        simp only [schemaDiag] at hl
        cases e' with
        | parser pos => exact hne pos rfl
        | comment e =>
          have := hw.2
          simp only [sound, schemaSound, definitionSound] at this
        | «attribute» a e => rw [definitionDiag] at hl; exact hs hl
        | «module» a e => rw [definitionDiag] at hl; exact hs hl
        | struct a e => rw [definitionDiag] at hl; exact hs hl
        | enum a e => rw [definitionDiag] at hl; exact hs hl
        | const a e => rw [definitionDiag] at hl; exact hs hl
        | alias a e => rw [definitionDiag] at hl; exact hs hl
        | «import» a e => rw [definitionDiag] at hl; exact hs hl
    · rintro ⟨body', ds', rest', hh', hr', hk'⟩
      have hb' := parseDefinition_back.2 hk'
      have e1 := Header.same hh hh'
      subst e1
      rcases hk with ⟨hb, pos, rfl⟩ | ⟨hc, _⟩
      · intro l hl
        obtain ⟨m, c, ls, rs, h1, h2⟩ := hl
        rw [schemaDiag, parserReport] at h1
        cases h1 with
        | self => exact (nomatch h2)
        | related h3 _ => exact (nomatch h3)
      · have e2 := Reads.same hr hr' (fun a r h => by rw [hc] at h; cases h) (fun a r h => by rw [hb'] at h; cases h)
        subst e2
        rw [hc] at hb'
        cases hb'
  · intro hl
    have hn : Parse.parseSchema std text = none := by
      rw [← parseSchema_same, he]; rfl
    obtain ⟨pos, hp⟩ := unlabelled hw.2 hl
    obtain ⟨r', ms, x, u, v, h1, h2, h3, _, h5, _⟩ := C78_place std text hn
    rw [h] at h1
    cases h1
    refine ⟨u, v, h3, ?_⟩
    rw [hp, parserReport] at h2
    rw [hp, parserReport]
    cases h2 with
    | last =>
      rcases h5 with h5 | ⟨c, h5⟩
      · exact h5
      · injection h5 with _ h6
        cases h6

/-! ### Examples -/

/-- The labels of a report and of the related reports, one after the other. -/
def C78_lines : Nat → Failing.Report → List (String × List (Nat × Nat))
  | 0, _ => []
  | n + 1, .mk m _ ls rs => (m, ls.map fun l => (l.offset, l.length)) :: rs.flatMap (C78_lines n)

/-- A type in a field of the second struct: four reports; the labels are in the text, but those of the struct and of the fields are
not where these end (C61). -/
theorem C78_example : (report C39_std C59_text).map (C78_lines 9) = some
    [("Failed to parse struct declaration", [(17, 18)]), ("Failed to parse fields declaration", [(26, 0)]),
     ("Failed to parse type definition", [(33, 0)]), ("Parser error at offset 33", [])] := by decide +kernel

theorem C78_example' : (report C39_std C59_text').map (C78_lines 9) = some
    [("Failed to parse id declaration", [(0, 20)]), ("Failed to parse struct declaration", [(10, 0)]),
     ("Invalid struct name", [(17, 0)])] := by decide +kernel

/-- A word that is no keyword: no label. -/
theorem C78_example'' : (report C39_std "struct A(u8 @1)\nstrukt B(u8 @1)\n".toList).map (C78_lines 9) = some
    [("Parser error at offset 16", [])] := by decide +kernel

end Mabo.Props
