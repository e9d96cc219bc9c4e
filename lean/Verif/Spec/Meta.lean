import Verif.Meta
/-!
Vocabulary for the statements about metadata: the bytes a field takes, and the arrays for which the displayed size is
right.
-/
namespace Mabo.Spec
open Mabo.Schema Mabo.Buf Mabo.Meta

/-- The bytes written for a field behind its header: nothing for an absent option, the bare value for a present one. -/
def fieldBytes (env : Env) (t : Ty) (v : Val) : Bytes :=
  match t, v with
  | .option t, .some v => Codegen.enc env true t v
  | .option _, _ => []
  | t, v => Codegen.enc env true t v

/-- The byte length of an array needs exactly as long a varint as its number of elements `n`: elements take at least
one byte (or `n` is below 128), and `n` elements of the maximal size (if there is one) need no longer varint than `n`.
(`x < 128^(k+1)` says that `x` fits a varint of `k+1` bytes.) -/
def SameVarint (n : Nat) (element : Option WireSize) : Prop :=
  (1 ≤ minOf element ∨ n < 128) ∧ ∀ m, maxOf element = some m → ∀ k, n < 128 ^ (k + 1) → m * n < 128 ^ (k + 1)

mutual
/-- All arrays of the type have such elements. (Types behind a length prefix or a name do not matter.) -/
def ArraysOk : Ty → Prop
  | .option t | .nonZero t => ArraysOk t
  | .tuple ts => ArraysOks ts
  | .array t n => n < 2 ^ 32 ∧ SameVarint n (wireSize t) ∧ ArraysOk t
  | _ => True
/-- For all elements. -/
def ArraysOks : List Ty → Prop
  | [] => True
  | t :: ts => ArraysOk t ∧ ArraysOks ts
end

/-- `n` is within the displayed bounds. -/
def Within (s : WireSize) (n : Nat) : Prop := s.min ≤ n ∧ ∀ m, s.max = some m → n ≤ m

end Mabo.Spec
