import Verif.Spec.Lsp
/-!
Position encodings in the Language Server Protocol (3.17, "Position"): the names of the encodings, and which place in a text
a position denotes.
-/
namespace Mabo.Spec
open Mabo.Lsp

/-- `PositionEncodingKind`. -/
def Encoding.name : Encoding → String
  | .utf8 => "utf-8"
  | .utf16 => "utf-16"
  | .utf32 => "utf-32"

/-- The place between the two parts of the text is denoted by the position: it is the position behind the first part, or
the first part ends its line and the position is further to the right ("if the character value is greater than the line
length it defaults back to the line length"). -/
def DenotesPlace (enc : Encoding) (p : Position) (a b : Text) : Prop :=
  posOf enc a = p ∨
    (posOf enc a).line = p.line ∧ (posOf enc a).character < p.character ∧ (b = [] ∨ ∃ b', b = '\n' :: b')

end Mabo.Spec
