import Verif.Parser.Report
import Verif.Spec.Errors
/-!
What the report of a syntax error shows, for C78.
-/
namespace Mabo.Spec.Report
open Mabo.Failing (Report Label)

/-- The reports are shown one below the other, each with the one below it as its only related report: the messages from the
outermost to the innermost, and the innermost report. -/
inductive Trail : Report → List String → Report → Prop
  | last {m c ls} : Trail (.mk m c ls []) [m] (.mk m c ls [])
  | next {m c ls r ms x} : Trail r ms x → Trail (.mk m c ls [r]) (m :: ms) x

/-- A report that is shown: the report itself, or one that is shown by a related report. -/
inductive Shows : Report → Report → Prop
  | self {r} : Shows r r
  | related {m c ls rs r x} : r ∈ rs → Shows r x → Shows (.mk m c ls rs) x

/-- The report has this label, at any depth. -/
def HasLabel (r : Report) (l : Label) : Prop := ∃ m c ls rs, Shows r (.mk m c ls rs) ∧ l ∈ ls

end Mabo.Spec.Report

namespace Mabo.Spec.Report
open Mabo.Parse (Text Std isSpace)
open Mabo.Spec.Errors

/-- The keywords that definitions start with. -/
def keywords : List String := ["mod", "struct", "enum", "const", "type", "use"]

/-- At the start of this text, behind comments and attributes, there is no keyword with a blank behind it. -/
def NoKeyword (std : Std) (s : Text) : Prop := ∃ c r a r', Parse.ws Parse.parseComments s = .ok c r ∧
  Parse.ws (Parse.parseAttributes std) r = .ok a r' ∧ ∀ k ∈ keywords, ¬ Opens k (r'.dropWhile isSpace)

/-- Behind the definitions at the start of the text that can be read there is no keyword. -/
def StopsWithoutKeyword (std : Std) (text : Text) : Prop := ∃ body ds rest,
  Header text body ∧ Reads std body ds rest ∧ NoKeyword std rest

end Mabo.Spec.Report
