import Verif.Parser.ReportStays
import Verif.Spec.Report
/-!
What the report of a syntax error shows.
-/
namespace Mabo.Failing
open Mabo.Parse (Text Std)
open Mabo.Spec.Report

/-- The innermost report is at the place of the diagnostic, and the message of the diagnostic is `p` or one of the messages. -/
def Leads (text : Text) (p : String) (f : Text × String) (r : Report) : Prop :=
  ∃ ms x, Trail r ms x ∧ (x = parserReport text f.1 ∨ ∃ c, x = variantReport text f.2 c f.1) ∧ f.2 ∈ p :: ms

theorem leads_struct {text : Text} {p m c : String} {f : Text × String} {a : At} {r : Report} (h : Leads text m f r) :
    Leads text p f (structReport' text m c a r) := by
  obtain ⟨ms, x, h1, h2, h3⟩ := h
  exact ⟨m :: ms, x, .next h1, h2, List.mem_cons_of_mem _ h3⟩

theorem leads_parser {text : Text} {p : String} {pos : Text} : Leads text p (pos, p) (parserReport text pos) :=
  ⟨_, _, .last, .inl rfl, List.mem_cons_self⟩

theorem leads_offset {text : Text} {p : String} {pos : Text} : Leads text p (pos, parserMessage text pos) (parserReport text pos) :=
  ⟨_, _, .last, .inl rfl, List.mem_cons_of_mem _ List.mem_cons_self⟩

theorem leads_variant {text : Text} {p m c : String} {pos : Text} : Leads text p (pos, m) (variantReport text m c pos) :=
  ⟨_, _, .last, .inr ⟨c, rfl⟩, List.mem_cons_of_mem _ List.mem_cons_self⟩

theorem leads_id {text : Text} {p : String} {e : IdError} (h : e.at_.start = e.cause) : Leads text p (idReport e) (idDiag text e) := by
  rw [idReport, h]
  exact leads_struct leads_parser

theorem leads_generics {text : Text} {p : String} {a : At} (e : GenericsCause) :
    Leads text p (genericsReport e) (genericsDiag text a e) := by
  cases e with
  | parser pos => exact leads_struct leads_parser
  | invalidName pos => exact leads_struct leads_variant

theorem leads_literal {text : Text} {p : String} {a : At} (e : LiteralCause) :
    Leads text p (literalReport e) (literalDiag text a e) := by
  cases e with
  | parser pos => exact leads_struct leads_parser
  | foundReference pos => exact leads_struct leads_variant
  | invalidInt pos => exact leads_struct leads_variant

mutual
theorem leads_type {text : Text} : ∀ (e : TypeCause), typeSound e →
    Leads text "Failed to parse type definition" (typeReport text e) (typeCauseDiag text e)
  | .parser pos, _ => by rw [typeReport, typeCauseDiag]; exact leads_parser
  | .type a e, h => by
    rw [typeSound] at h
    rw [typeReport, typeCauseDiag]
    exact leads_struct (leads_type e h)
  | .segment e, h => by
    rw [typeSound] at h
    rw [typeReport, typeCauseDiag]
    exact leads_import e h
theorem leads_import {text : Text} {p : String} : ∀ (e : ImportCause), importSound e →
    Leads text p (importReport text e) (importCauseDiag text e)
  | .parser pos, _ => by rw [importReport, importCauseDiag]; exact leads_offset
  | .invalidSegmentName pos, _ => by rw [importReport, importCauseDiag]; exact leads_variant
  | .structName e, h => by
    rw [importSound] at h
    rw [importReport, importCauseDiag]
    exact leads_structCause e h
  | .enumName e, h => by
    rw [importSound] at h
    rw [importReport, importCauseDiag]
    exact leads_enumCause e h
theorem leads_structCause {text : Text} {p : String} : ∀ (e : StructCause), structSound e →
    Leads text p (structCauseReport text e) (structCauseDiag text e)
  | .parser pos, _ => by rw [structCauseReport, structCauseDiag]; exact leads_offset
  | .invalidName pos, _ => by rw [structCauseReport, structCauseDiag]; exact leads_variant
  | .generics a e, _ => by rw [structCauseReport, structCauseDiag]; exact leads_generics e
  | .fields a e, h => by
    rw [structSound] at h
    rw [structCauseReport, structCauseDiag]
    exact leads_struct (leads_fields e h)
theorem leads_enumCause {text : Text} {p : String} : ∀ (e : EnumCause), enumSound e →
    Leads text p (enumCauseReport text e) (enumCauseDiag text e)
  | .parser pos, _ => by rw [enumCauseReport, enumCauseDiag]; exact leads_offset
  | .invalidName pos, _ => by rw [enumCauseReport, enumCauseDiag]; exact leads_variant
  | .invalidVariantName pos, _ => by rw [enumCauseReport, enumCauseDiag]; exact leads_variant
  | .generics a e, _ => by rw [enumCauseReport, enumCauseDiag]; exact leads_generics e
  | .field a e, h => by
    rw [enumSound] at h
    rw [enumCauseReport, enumCauseDiag]
    exact leads_struct (leads_fields e h)
  | .comment e, h => by rw [enumSound] at h; exact False.elim h
  | .id e, h => by
    rw [enumSound] at h
    rw [enumCauseReport, enumCauseDiag]
    exact leads_id h
theorem leads_fields {text : Text} : ∀ (e : FieldsCause), fieldsSound e →
    Leads text "Failed to parse fields declaration" (fieldsReport text e) (fieldsCauseDiag text e)
  | .parser pos, _ => by rw [fieldsReport, fieldsCauseDiag]; exact leads_parser
  | .invalidName pos, _ => by rw [fieldsReport, fieldsCauseDiag]; exact leads_variant
  | .type a e, h => by
    rw [fieldsSound] at h
    rw [fieldsReport, fieldsCauseDiag]
    exact leads_struct (leads_type e h)
  | .id e, h => by
    rw [fieldsSound] at h
    rw [fieldsReport, fieldsCauseDiag]
    exact leads_id h
  | .comment e, h => by rw [fieldsSound] at h; exact False.elim h
end

theorem leads_structDef {text : Text} (e : StructCause) (h : structSound e) :
    Leads text "Failed to parse struct declaration" (structReport text e) (structCauseDiag text e) := by
  cases e with
  | parser pos => rw [structReport, structCauseDiag]; exact leads_parser
  | invalidName pos => exact leads_structCause _ h
  | generics a e => exact leads_structCause _ h
  | fields a e => exact leads_structCause _ h

theorem leads_enumDef {text : Text} (e : EnumCause) (h : enumSound e) :
    Leads text "Failed to parse enum declaration" (enumReport text e) (enumCauseDiag text e) := by
  cases e with
  | parser pos => rw [enumReport, enumCauseDiag]; exact leads_parser
  | invalidName pos => exact leads_enumCause _ h
  | invalidVariantName pos => exact leads_enumCause _ h
  | generics a e => exact leads_enumCause _ h
  | field a e => exact leads_enumCause _ h
  | comment e => exact leads_enumCause _ h
  | id e => exact leads_enumCause _ h

theorem leads_constDef {text : Text} (e : ConstCause) (h : constSound e) :
    Leads text "Failed to parse const declaration" (constReport text e) (constCauseDiag text e) := by
  cases e with
  | parser pos => exact leads_parser
  | unexpectedChar pos c => exact leads_variant
  | invalidName pos => exact leads_variant
  | type a e => exact leads_struct (leads_type e h)
  | literal a e => exact leads_literal e

theorem leads_aliasDef {text : Text} (e : AliasCause) (h : aliasSound e) :
    Leads text "Failed to parse type alias declaration" (aliasReport text e) (aliasCauseDiag text e) := by
  cases e with
  | parser pos => exact leads_parser
  | invalidName pos => exact leads_variant
  | generics a e => exact leads_generics e
  | type a e => exact leads_struct (leads_type e h)

theorem leads_attribute {text : Text} (e : AttributeCause) :
    Leads text "Failed to parse struct declaration" (attributeReport e) (attributeCauseDiag text e) := by
  cases e with
  | parser pos => exact leads_parser
  | literal a e => exact leads_literal e

mutual
theorem leads_module {text : Text} : ∀ (e : ModuleCause), moduleSound e →
    Leads text "Failed to parse id declaration" (moduleReport text e) (moduleCauseDiag text e)
  | .parser pos, _ => by rw [moduleReport, moduleCauseDiag]; exact leads_parser
  | .invalidName pos, _ => by rw [moduleReport, moduleCauseDiag]; exact leads_variant
  | .definition e, h => by
    rw [moduleSound] at h
    rw [moduleReport, moduleCauseDiag]
    exact leads_definition e h
theorem leads_definition {text : Text} {p : String} : ∀ (e : DefinitionError), definitionSound e →
    Leads text p (definitionReport text e) (definitionDiag text e)
  | .parser pos, _ => by rw [definitionReport, definitionDiag]; exact leads_offset
  | .comment e, h => by rw [definitionSound] at h; exact False.elim h
  | .attribute a e, _ => by rw [definitionReport, definitionDiag]; exact leads_struct (leads_attribute e)
  | .module a e, h => by
    rw [definitionSound] at h
    rw [definitionReport, definitionDiag]; exact leads_struct (leads_module e h)
  | .struct a e, h => by
    rw [definitionSound] at h
    rw [definitionReport, definitionDiag]; exact leads_struct (leads_structDef e h)
  | .enum a e, h => by
    rw [definitionSound] at h
    rw [definitionReport, definitionDiag]; exact leads_struct (leads_enumDef e h)
  | .const a e, h => by
    rw [definitionSound] at h
    rw [definitionReport, definitionDiag]; exact leads_struct (leads_constDef e h)
  | .alias a e, h => by
    rw [definitionSound] at h
    rw [definitionReport, definitionDiag]; exact leads_struct (leads_aliasDef e h)
  | .import a e, h => by
    rw [definitionSound] at h
    rw [definitionReport, definitionDiag]; exact leads_struct (leads_import e h)
end

theorem leads_schema {text : Text} {p : String} (e : SchemaCause) (h : schemaSound e) :
    Leads text p (schemaReport text e) (schemaDiag text e) := by
  cases e with
  | parser pos => exact leads_offset
  | comment e => exact False.elim h
  | definition e => exact leads_definition e h

/-! ### Labels -/

/-- The labels of a report are those of places in a list. -/
def Marks (text : Text) (ps : List At) (r : Report) : Prop :=
  ∀ l, HasLabel r l → ∃ a ∈ ps, l.offset = (rangeLabel text a).offset ∧ l.length = (rangeLabel text a).length

theorem marks_struct {text : Text} {m c : String} {a : At} {r : Report} {ps : List At} (h : Marks text ps r) :
    Marks text (a :: ps) (structReport' text m c a r) := by
  rintro l ⟨m', c', ls, rs, hs, hl⟩
  rw [structReport'] at hs
  cases hs with
  | self => exact ⟨a, List.mem_cons_self, by rw [List.mem_singleton.1 hl]; exact ⟨rfl, rfl⟩⟩
  | related hr hs =>
    rw [List.mem_singleton.1 hr] at hs
    obtain ⟨b, hb, h2⟩ := h l ⟨m', c', ls, rs, hs, hl⟩
    exact ⟨b, List.mem_cons_of_mem _ hb, h2⟩

theorem marks_parser {text pos : Text} {ps : List At} : Marks text ps (parserReport text pos) := by
  rintro l ⟨m', c', ls, rs, hs, hl⟩
  rw [parserReport] at hs
  cases hs with
  | self => exact (nomatch hl)
  | related hr hs => exact (nomatch hr)

theorem marks_variant {text pos : Text} {m c : String} : Marks text [atStop pos] (variantReport text m c pos) := by
  rintro l ⟨m', c', ls, rs, hs, hl⟩
  rw [variantReport] at hs
  cases hs with
  | self =>
    refine ⟨_, List.mem_cons_self, ?_⟩
    rw [List.mem_singleton.1 hl]
    exact ⟨rfl, by simp [rangeLabel, atStop]⟩
  | related hr hs => exact (nomatch hr)

theorem marks_comment {text : Text} {e : CommentError} : Marks text (places e) (commentDiag text e) := marks_struct marks_parser
theorem marks_id {text : Text} {e : IdError} : Marks text (places e) (idDiag text e) := marks_struct marks_parser

theorem marks_generics {text : Text} {a : At} (e : GenericsCause) : Marks text (a :: genericsPlaces e) (genericsDiag text a e) := by
  cases e with
  | parser pos => exact marks_struct marks_parser
  | invalidName pos => exact marks_struct marks_variant

theorem marks_literal {text : Text} {a : At} (e : LiteralCause) : Marks text (a :: literalPlaces e) (literalDiag text a e) := by
  cases e with
  | parser pos => exact marks_struct marks_parser
  | foundReference pos => exact marks_struct marks_variant
  | invalidInt pos => exact marks_struct marks_variant

mutual
theorem marks_type {text : Text} : ∀ (e : TypeCause), Marks text (typePlaces e) (typeCauseDiag text e)
  | .parser pos => by rw [typeCauseDiag]; exact marks_parser
  | .type a e => by rw [typePlaces, typeCauseDiag]; exact marks_struct (marks_type e)
  | .segment e => by rw [typePlaces, typeCauseDiag]; exact marks_import e
theorem marks_import {text : Text} : ∀ (e : ImportCause), Marks text (importPlaces e) (importCauseDiag text e)
  | .parser pos => by rw [importCauseDiag]; exact marks_parser
  | .invalidSegmentName pos => by rw [importPlaces, importCauseDiag]; exact marks_variant
  | .structName e => by rw [importPlaces, importCauseDiag]; exact marks_structCause e
  | .enumName e => by rw [importPlaces, importCauseDiag]; exact marks_enumCause e
theorem marks_structCause {text : Text} : ∀ (e : StructCause), Marks text (structPlaces e) (structCauseDiag text e)
  | .parser pos => by rw [structCauseDiag]; exact marks_parser
  | .invalidName pos => by rw [structPlaces, structCauseDiag]; exact marks_variant
  | .generics a e => by rw [structPlaces, structCauseDiag]; exact marks_generics e
  | .fields a e => by rw [structPlaces, structCauseDiag]; exact marks_struct (marks_fields e)
theorem marks_enumCause {text : Text} : ∀ (e : EnumCause), Marks text (enumPlaces e) (enumCauseDiag text e)
  | .parser pos => by rw [enumCauseDiag]; exact marks_parser
  | .invalidName pos => by rw [enumPlaces, enumCauseDiag]; exact marks_variant
  | .invalidVariantName pos => by rw [enumPlaces, enumCauseDiag]; exact marks_variant
  | .generics a e => by rw [enumPlaces, enumCauseDiag]; exact marks_generics e
  | .field a e => by rw [enumPlaces, enumCauseDiag]; exact marks_struct (marks_fields e)
  | .comment e => by rw [enumPlaces, enumCauseDiag]; exact marks_comment
  | .id e => by rw [enumPlaces, enumCauseDiag]; exact marks_id
theorem marks_fields {text : Text} : ∀ (e : FieldsCause), Marks text (fieldsPlaces e) (fieldsCauseDiag text e)
  | .parser pos => by rw [fieldsCauseDiag]; exact marks_parser
  | .invalidName pos => by rw [fieldsPlaces, fieldsCauseDiag]; exact marks_variant
  | .type a e => by rw [fieldsPlaces, fieldsCauseDiag]; exact marks_struct (marks_type e)
  | .id e => by rw [fieldsPlaces, fieldsCauseDiag]; exact marks_id
  | .comment e => by rw [fieldsPlaces, fieldsCauseDiag]; exact marks_comment
end

theorem marks_constCause {text : Text} (e : ConstCause) : Marks text (constPlaces e) (constCauseDiag text e) := by
  cases e with
  | parser pos => exact marks_parser
  | unexpectedChar pos c => exact marks_variant
  | invalidName pos => exact marks_variant
  | type a e => exact marks_struct (marks_type e)
  | literal a e => exact marks_literal e

theorem marks_aliasCause {text : Text} (e : AliasCause) : Marks text (aliasPlaces e) (aliasCauseDiag text e) := by
  cases e with
  | parser pos => exact marks_parser
  | invalidName pos => exact marks_variant
  | generics a e => exact marks_generics e
  | type a e => exact marks_struct (marks_type e)

theorem marks_attribute {text : Text} (e : AttributeCause) : Marks text (attributePlaces e) (attributeCauseDiag text e) := by
  cases e with
  | parser pos => exact marks_parser
  | literal a e => exact marks_literal e

mutual
theorem marks_module {text : Text} : ∀ (e : ModuleCause), Marks text (modulePlaces e) (moduleCauseDiag text e)
  | .parser pos => by rw [moduleCauseDiag]; exact marks_parser
  | .invalidName pos => by rw [modulePlaces, moduleCauseDiag]; exact marks_variant
  | .definition e => by rw [modulePlaces, moduleCauseDiag]; exact marks_definition e
theorem marks_definition {text : Text} : ∀ (e : DefinitionError), Marks text (definitionPlaces e) (definitionDiag text e)
  | .parser pos => by rw [definitionDiag]; exact marks_parser
  | .comment e => by rw [definitionPlaces, definitionDiag]; exact marks_comment
  | .attribute a e => by rw [definitionPlaces, definitionDiag]; exact marks_struct (marks_attribute e)
  | .module a e => by rw [definitionPlaces, definitionDiag]; exact marks_struct (marks_module e)
  | .struct a e => by rw [definitionPlaces, definitionDiag]; exact marks_struct (marks_structCause e)
  | .enum a e => by rw [definitionPlaces, definitionDiag]; exact marks_struct (marks_enumCause e)
  | .const a e => by rw [definitionPlaces, definitionDiag]; exact marks_struct (marks_constCause e)
  | .alias a e => by rw [definitionPlaces, definitionDiag]; exact marks_struct (marks_aliasCause e)
  | .import a e => by rw [definitionPlaces, definitionDiag]; exact marks_struct (marks_import e)
end

theorem marks_schema {text : Text} (e : SchemaCause) : Marks text (schemaPlaces e) (schemaDiag text e) := by
  cases e with
  | parser pos => exact marks_parser
  | comment e => exact marks_comment
  | definition e => exact marks_definition e

theorem offsetOf_append (u v : Text) : offsetOf (u ++ v) v = bytes u := by
  rw [offsetOf, bytes_add]; omega

/-- A label of a place of the text is in the text. -/
theorem rangeLabel_in {text : Text} {a : At} (h : a.In text) :
    ∃ u v, text = u ++ v ∧ (rangeLabel text a).offset = bytes u ∧ (rangeLabel text a).length ≤ bytes v := by
  obtain ⟨⟨u, hu⟩, h2⟩ := h
  refine ⟨u, a.start, hu.symm, ?_, ?_⟩
  · rw [← hu]; exact offsetOf_append _ _
  · have ho : offsetOf text a.start = bytes u := by rw [← hu]; exact offsetOf_append _ _
    have hb : bytes text = bytes u + bytes a.start := by rw [← hu]; exact bytes_add _ _
    simp only [rangeLabel, ho]
    cases hs : a.stop with
    | here r =>
      rw [hs] at h2
      have := bytes_suffix h2
      simp only [offsetOf]; omega
    | offset n =>
      rw [hs] at h2
      simp only at h2 ⊢
      omega

/-- A report without labels is unspecific, at the outermost level. -/
theorem unlabelled {text : Text} {e : SchemaCause} (h : schemaSound e) (hl : ∀ l, ¬ HasLabel (schemaDiag text e) l) :
    ∃ pos, schemaDiag text e = parserReport text pos := by
  have struct : ∀ {m c a r}, (∀ l, ¬ HasLabel (structReport' text m c a r) l) → False := fun h =>
    h _ ⟨_, _, _, _, .self, List.mem_cons_self⟩
  cases e with
  | parser pos => exact ⟨pos, rfl⟩
  | comment e => exact False.elim h
  | definition e =>
    simp only [schemaDiag] at hl ⊢
    cases e with
    | parser pos => exact ⟨pos, by rw [definitionDiag]⟩
    | comment e => simp only [schemaSound, definitionSound] at h; exact False.elim h
    | «attribute» a e => rw [definitionDiag] at hl; exact (struct hl).elim
    | «module» a e => rw [definitionDiag] at hl; exact (struct hl).elim
    | struct a e => rw [definitionDiag] at hl; exact (struct hl).elim
    | enum a e => rw [definitionDiag] at hl; exact (struct hl).elim
    | const a e => rw [definitionDiag] at hl; exact (struct hl).elim
    | alias a e => rw [definitionDiag] at hl; exact (struct hl).elim
    | «import» a e => rw [definitionDiag] at hl; exact (struct hl).elim

end Mabo.Failing
