import Verif.Build.Failure
import Verif.Spec.Compiler
import Verif.Spec.Diagnostics
/-!
What a user wants to be told about a project that is rejected.
-/
namespace Mabo.Spec.Tell
open Mabo.Tell
open Mabo.Lsp (Position getRange)

/-- The content of the file is a schema that passes validation. -/
def FileOk (std : Parse.Std) (i : Input) : Prop := ∃ s, Parse.parseSchema std i.text = some s ∧ ValidSchema s

/-- The first file, in the order of the project, that is no valid schema. -/
def FirstBad (std : Parse.Std) (inputs : List Input) (i : Input) : Prop :=
  ∃ pre post, inputs = pre ++ i :: post ∧ (∀ j ∈ pre, FileOk std j) ∧ ¬ FileOk std i

/-- The report and the diagnostic of an editor say the same: the last message is that of the diagnostic, the label of what is wrong has
its range, and if something is there twice, the label of the first one has the range of the related information. -/
def SameAs {Uri : Type} (position : Nat → Option Position) (text : Parse.Text) (file : Uri) (messages : List String)
    (labels : List (String × Spanned.Span)) (d : Lsp.Diagnostic Uri) : Prop :=
  messages.getLast? = some d.message ∧
  ((∃ s, labels = [("declared here", s)] ∧ getRange position text s = .ok d.range ∧ d.related = []) ∨
   ∃ a b r, labels = [("first declared here", a), ("used here again", b)] ∧ getRange position text b = .ok d.range ∧
     getRange position text a = .ok r ∧ d.related = [((file, r), "first used here")])

end Mabo.Spec.Tell
