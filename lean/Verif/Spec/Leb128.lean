/-!
Independent specification of the variable-length integer format (book/src/reference/wire-format.md,
"Varint encoding"): little-endian groups of seven bits, a set top bit means "more bytes follow".
Nothing here refers to the model of the implementation.
-/
namespace Mabo.Spec

/-- The four integer widths that use the varint format. -/
def VarintWidth (w : Nat) : Prop := w = 16 ∨ w = 32 ∨ w = 64 ∨ w = 128

instance (w : Nat) : Decidable (VarintWidth w) := by unfold VarintWidth; infer_instance

/-- Documented maximum number of bytes (table in wire-format.md). -/
def maxBytes : Nat → Nat
  | 16 => 3
  | 32 => 5
  | 64 => 10
  | 128 => 19
  | _ => 0

/-- Number denoted by a sequence of seven-bit groups, least significant group first. -/
def base128 : List UInt8 → Nat
  | [] => 0
  | b :: bs => b.toNat % 128 + 128 * base128 bs

/-- `bs` is one complete varint: every byte but the last has its top bit set. -/
def IsVarint (bs : List UInt8) : Prop :=
  ∃ pre last, bs = pre ++ [last] ∧ (∀ b ∈ pre, 128 ≤ b.toNat) ∧ last.toNat < 128

end Mabo.Spec
