import Verif.Codegen
import Verif.Compiler.Simplify
/-!
Model of `crates/mabo-meta/src/lib.rs`.

Simplifications: `wire_size` is modelled on the types of `Verif/Schema.lean` (named types and generic parameters are the
`External` case); of a `WireSize` only `min` and `max` are kept (labels and the breakdown in `inner` are for display);
`usize` arithmetic is on natural numbers (nested arrays of astronomic size would overflow).
-/
namespace Mabo.Meta
open Mabo.Schema

/-- `iter().map(..).max().unwrap_or(0)`. -/
def maxId : List (BitVec 32) → BitVec 32
  | [] => 0
  | x :: xs => if (maxId xs).toNat < x.toNat then x else maxId xs

/-- `max().unwrap_or(0) + 1` on `u32`: with overflow checks `none` is a panic, without them the sum wraps. -/
def nextFree (checked : Bool) (ids : List (BitVec 32)) : Option (BitVec 32) :=
  if checked && (maxId ids).toNat == 2 ^ 32 - 1 then none else some (maxId ids + 1)

/-- `next_variant_id`, lib.rs:12-14. -/
def nextVariantId (checked : Bool) (vs : List Simplify.Variant) : Option (BitVec 32) :=
  nextFree checked (vs.map (·.id))

/-- `next_field_id`, lib.rs:18-32; the outer option is the one of the Rust function. -/
def nextFieldId (checked : Bool) (fs : Simplify.Fields) : Option (Option (BitVec 32)) :=
  if fs.kind = .unit then some none else (nextFree checked (fs.fields.map (·.id))).map some

/-- `WireSize`, lib.rs:35-40. -/
structure WireSize where
  min : Nat
  max : Option Nat
deriving DecidableEq, Repr

/-- `varint_size`, lib.rs:209-211. -/
def varintSize (n : Nat) : Nat := Varint.sizeU (BitVec.ofNat 32 n)

/-- Leaf arms of `wire_size`, lib.rs:98-114,157-158. -/
def wirePrim : Prim → WireSize
  | .bool | .u8 | .i8 => ⟨1, some 1⟩
  | .u16 | .i16 => ⟨1, some 3⟩
  | .u32 | .i32 => ⟨1, some 5⟩
  | .u64 | .i64 => ⟨1, some 10⟩
  | .u128 | .i128 => ⟨1, some 19⟩
  | .f32 => ⟨4, some 4⟩
  | .f64 => ⟨8, some 8⟩
  | .string | .stringRef | .bytes | .bytesRef | .boxString | .boxBytes => ⟨1, none⟩

/-- `inner.map_or(0, |size| size.min)`. -/
def minOf : Option WireSize → Nat
  | some s => s.min
  | none => 0

/-- `inner.and_then(|size| size.max)`. -/
def maxOf : Option WireSize → Option Nat
  | some s => s.max
  | none => none

mutual
/-- `wire_size`, lib.rs:96-165, with `wire_size_array`, 167-184, and `wire_size_tuple`, 186-211. -/
def wireSize : Ty → Option WireSize
  | .prim p => some (wirePrim p)
  | .vec _ | .hashMap _ _ | .hashSet _ => some ⟨1, none⟩
  | .option t => some ⟨0, (maxOf (wireSize t)).map (1 + ·)⟩
  | .nonZero t => some ⟨0, (maxOf (wireSize t)).map (1 + ·)⟩
  | .array t n =>
    some ⟨varintSize n + minOf (wireSize t) * n, (maxOf (wireSize t)).map fun m => varintSize n + m * n⟩
  | .tuple ts => some ⟨minSum ts, maxSum ts⟩
  | .ext _ _ | .param _ | .inst _ => none
/-- `filter_map(size).map(min).sum()`, lib.rs:196-200. -/
def minSum : List Ty → Nat
  | [] => 0
  | t :: ts => minOf (wireSize t) + minSum ts
/-- `map(max).sum::<Option<usize>>()`, lib.rs:201-204. -/
def maxSum : List Ty → Option Nat
  | [] => some 0
  | t :: ts =>
    match maxOf (wireSize t), maxSum ts with
    | some a, some b => some (a + b)
    | _, _ => none
end

end Mabo.Meta
