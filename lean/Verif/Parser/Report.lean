import Verif.Parser.Errors
/-!
The report of a syntax error: what the derives of `crates/mabo-derive` (`ParserError`, error.rs; `ParserErrorCause`, cause.rs) and
the hand-written implementations in `crates/mabo-parser/src/error.rs` make of an error for `miette`, which the commands
`mabo check` and `mabo fmt` print: messages, codes, labels and the related reports.

Not modelled: the help texts (styled for the terminal), the links to the documentation, and the rendering by `miette`.
-/
namespace Mabo.Failing
open Mabo.Parse (Text Std)

/-- `miette::LabeledSpan`: the text, the offset in bytes and the length in bytes. -/
structure Label where
  text : String
  offset : Nat
  length : Nat
deriving DecidableEq, Repr

/-- What an implementation of `miette::Diagnostic` tells: the message (`Display`), `code`, `labels` and `related`. -/
inductive Report where
  | mk (message : String) (code : Option String) (labels : List Label) (related : List Report)

/-- The length of a text in bytes. -/
def bytes (s : Text) : Nat := (s.map Char.utf8Size).sum

/-- The offset in bytes of a position, `current_token_start`. -/
def offsetOf (text pos : Text) : Nat := bytes text - bytes pos

/-- `LabeledSpan::new_with_span(text, range)`: the length of a range that stops before it starts is 0. -/
def rangeLabel (text : Text) (a : At) : Label :=
  ⟨"In this declaration", offsetOf text a.start,
    (match a.stop with
      | .here r => offsetOf text r
      | .offset n => n) - offsetOf text a.start⟩

/-- The derive `ParserError`, mabo-derive/src/error.rs:73-178, for the structs `ParseError`, whose only label is on the field
`at`; the cause is the related report. -/
def structReport' (text : Text) (message code : String) (a : At) (cause : Report) : Report :=
  .mk message (some code) [rangeLabel text a] [cause]

/-- `Parser`, the first variant of the enums `Cause`: mabo-derive/src/cause.rs:218-237 and 389-427. -/
def parserReport (text pos : Text) : Report := .mk (parserMessage text pos) none [] []

/-- A variant with the attribute `err` of an enum `Cause`: cause.rs:142-163 and 244-387; the only label is on the field `at`, a
`usize`. -/
def variantReport (text : Text) (message code : String) (pos : Text) : Report :=
  .mk message (some code) [⟨"Problematic character", offsetOf text pos, 0⟩] []

/-- `comments::ParseError`, parser.rs:158-177. -/
def commentDiag (text : Text) (e : CommentError) : Report :=
  structReport' text "Failed to parse comment declaration" "mabo::parse::comment" e.at_ (parserReport text e.cause)

/-- `ids::ParseError`, parser.rs:108-124. -/
def idDiag (text : Text) (e : IdError) : Report :=
  structReport' text "Failed to parse id declaration" "mabo::parse::id" e.at_ (parserReport text e.cause)

/-- `generics::Cause`, generics.rs:29-43. -/
def genericsCauseDiag (text : Text) : GenericsCause → Report
  | .parser pos => parserReport text pos
  | .invalidName pos => variantReport text "TODO!" "mabo::parse::generics::invalid_name" pos

/-- `generics::ParseError`, generics.rs:12-28. -/
def genericsDiag (text : Text) (a : At) (cause : GenericsCause) : Report :=
  structReport' text "Failed to parse generics declaration" "mabo::parse::generics" a (genericsCauseDiag text cause)

mutual
/-- `types::Cause`, types.rs:34-46, and `types::ParseError`, 17-32: a variant with the attribute `forward` reports what is in it
(cause.rs:142-163 and 244-387). -/
def typeCauseDiag (text : Text) : TypeCause → Report
  | .parser pos => parserReport text pos
  | .type a cause =>
    structReport' text "Failed to parse type definition" "mabo::parse::type_def" a (typeCauseDiag text cause)
  | .segment cause => importCauseDiag text cause
/-- `imports::Cause`, imports.rs:35-63. -/
def importCauseDiag (text : Text) : ImportCause → Report
  | .parser pos => parserReport text pos
  | .invalidSegmentName pos => variantReport text "Invalid segment name" "mabo::parse::import::segment::invalid_name" pos
  | .structName cause => structCauseDiag text cause
  | .enumName cause => enumCauseDiag text cause
/-- `structs::Cause`, structs.rs:35-63. -/
def structCauseDiag (text : Text) : StructCause → Report
  | .parser pos => parserReport text pos
  | .invalidName pos => variantReport text "Invalid struct name" "mabo::parse::struct_def::invalid_name" pos
  | .generics a cause => genericsDiag text a cause
  | .fields a cause =>
    structReport' text "Failed to parse fields declaration" "mabo::parse::id" a (fieldsCauseDiag text cause)
/-- `enums::Cause`, enums.rs:35-85. -/
def enumCauseDiag (text : Text) : EnumCause → Report
  | .parser pos => parserReport text pos
  | .invalidName pos => variantReport text "Invalid enum name" "mabo::parse::enum_def::invalid_name" pos
  | .invalidVariantName pos => variantReport text "Invalid variant name" "mabo::parse::enum_def::invalid_name" pos
  | .generics a cause => genericsDiag text a cause
  | .field a cause =>
    structReport' text "Failed to parse fields declaration" "mabo::parse::id" a (fieldsCauseDiag text cause)
  | .comment e => commentDiag text e
  | .id e => idDiag text e
/-- `fields::Cause`, fields.rs:40-71. -/
def fieldsCauseDiag (text : Text) : FieldsCause → Report
  | .parser pos => parserReport text pos
  | .invalidName pos => variantReport text "Invalid field name" "mabo::parse::fields::named::invalid_name" pos
  | .type a cause =>
    structReport' text "Failed to parse type definition" "mabo::parse::type_def" a (typeCauseDiag text cause)
  | .id e => idDiag text e
  | .comment e => commentDiag text e
end

/-- `types::ParseError`, types.rs:17-32. -/
def typeDiag (text : Text) (a : At) (cause : TypeCause) : Report :=
  structReport' text "Failed to parse type definition" "mabo::parse::type_def" a (typeCauseDiag text cause)

/-- `literals::Cause`, literals.rs:48-88, and `literals::ParseError`, 23-46. -/
def literalDiag (text : Text) (a : At) (cause : LiteralCause) : Report :=
  structReport' text "Failed to parse literal value" "mabo::parse::literal" a (match cause with
    | .parser pos => parserReport text pos
    | .foundReference pos => variantReport text "Found a reference value" "mabo::parse::literal::reference" pos
    | .invalidInt pos => variantReport text "Invalid integer literal" "mabo::parse::literal::int" pos)

/-- `consts::Cause`, consts.rs:35-76. -/
def constCauseDiag (text : Text) : ConstCause → Report
  | .parser pos => parserReport text pos
  | .unexpectedChar pos _ => variantReport text "Unexpected character" "mabo::parse::const_def::char" pos
  | .invalidName pos => variantReport text "Invalid const name" "mabo::parse::const_def::invalid_name" pos
  | .type a cause => typeDiag text a cause
  | .literal a cause => literalDiag text a cause

/-- `aliases::Cause`, aliases.rs:35-63. -/
def aliasCauseDiag (text : Text) : AliasCause → Report
  | .parser pos => parserReport text pos
  | .invalidName pos => variantReport text "Invalid alias name" "mabo::parse::alias_def::invalid_name" pos
  | .generics a cause => genericsDiag text a cause
  | .type a cause => typeDiag text a cause

/-- `attributes::Cause`, attributes.rs:38-46. -/
def attributeCauseDiag (text : Text) : AttributeCause → Report
  | .parser pos => parserReport text pos
  | .literal a cause => literalDiag text a cause

mutual
/-- `modules::Cause`, modules.rs:35-60. -/
def moduleCauseDiag (text : Text) : ModuleCause → Report
  | .parser pos => parserReport text pos
  | .invalidName pos => variantReport text "Invalid module name" "mabo::parse::module::invalid_name" pos
  | .definition e => definitionDiag text e
/-- `ParseDefinitionError`, error.rs:136-205, with `diagnostic(transparent)`, and the errors of the definitions: attributes.rs:19-36,
modules.rs:17-33, structs.rs:17-33, enums.rs:17-33, consts.rs:17-33, aliases.rs:17-33, imports.rs:17-33. -/
def definitionDiag (text : Text) : DefinitionError → Report
  | .parser pos => parserReport text pos
  | .comment e => commentDiag text e
  | .attribute a cause =>
    structReport' text "Failed to parse struct declaration" "mabo::parse::struct_def" a (attributeCauseDiag text cause)
  | .module a cause => structReport' text "Failed to parse id declaration" "mabo::parse::mod_def" a (moduleCauseDiag text cause)
  | .struct a cause =>
    structReport' text "Failed to parse struct declaration" "mabo::parse::struct_def" a (structCauseDiag text cause)
  | .enum a cause => structReport' text "Failed to parse enum declaration" "mabo::parse::enum_def" a (enumCauseDiag text cause)
  | .const a cause => structReport' text "Failed to parse const declaration" "mabo::parse::const_def" a (constCauseDiag text cause)
  | .alias a cause =>
    structReport' text "Failed to parse type alias declaration" "mabo::parse::alias_def" a (aliasCauseDiag text cause)
  | .import a cause => structReport' text "Failed to parse use declaration" "mabo::parse::use_def" a (importCauseDiag text cause)
end

/-- `ParseSchemaError` and `ParseSchemaCause`, error.rs:27-133: transparent. -/
def schemaDiag (text : Text) : SchemaCause → Report
  | .parser pos => parserReport text pos
  | .comment e => commentDiag text e
  | .definition e => definitionDiag text e

/-- The report of `Schema::parse` for a text (lib.rs:160-174), none if it is a schema. -/
def report (std : Std) (text : Text) : Option Report := match parseSchema std text with
  | .ok _ => none
  | .error e => some (schemaDiag text e)

end Mabo.Failing
