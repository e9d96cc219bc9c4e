/-! Specification vocabulary for buffers made of several pieces. -/
namespace Mabo.Spec

/-- Every piece but the last ends with a byte below `0x80` (empty pieces are ignored), so no boundary lies inside a
varint. -/
def CleanBoundaries : List (List UInt8) → Prop
  | [] => True
  | [_] => True
  | c :: cs => (∀ b, c.getLast? = some b → b.toNat < 128) ∧ CleanBoundaries cs

end Mabo.Spec
