import Verif.Spec.Compiler
/-! Which written schemas the Rust generator has code for. -/
namespace Mabo.Spec
open Mabo.Ast

/-- `u` is part of `t`, anywhere. -/
inductive Piece (u : DataType) : DataType → Prop where
  | here : Piece u u
  | vec {t} : Piece u t → Piece u (.vec t)
  | hashMapKey {k v} : Piece u k → Piece u (.hashMap k v)
  | hashMapValue {k v} : Piece u v → Piece u (.hashMap k v)
  | hashSet {t} : Piece u t → Piece u (.hashSet t)
  | option {t} : Piece u t → Piece u (.option t)
  | nonZero {t} : Piece u t → Piece u (.nonZero t)
  | array {t n} : Piece u t → Piece u (.array t n)
  | tuple {t ts tr} : t ∈ ts → Piece u t → Piece u (.tuple ts tr)
  | argument {t path name args tr} : t ∈ args → Piece u t → Piece u (.external path name args tr)

/-- `non_zero<..>` is defined for integers, strings, bytes, vectors, maps and sets. -/
def NonZeroAble : DataType → Prop
  | .prim p => p ≠ .bool ∧ p ≠ .f32 ∧ p ≠ .f64 ∧ p ≠ .boxString ∧ p ≠ .boxBytes
  | .vec _ | .hashMap _ _ | .hashSet _ => True
  | _ => False

/-- A constant has a scalar, string or bytes type. -/
def ConstType (t : DataType) : Prop := ∃ p, t = .prim p ∧ p ≠ .boxString ∧ p ≠ .boxBytes

/-- All uses of `non_zero` in a type make sense. -/
def NonZeroOk (t : DataType) : Prop := ∀ a, Piece (.nonZero a) t → NonZeroAble a

/-- `u` is part of `t`, not inside the type arguments of a named type. -/
inductive OwnPiece (u : DataType) : DataType → Prop where
  | here : OwnPiece u u
  | vec {t} : OwnPiece u t → OwnPiece u (.vec t)
  | hashMapKey {k v} : OwnPiece u k → OwnPiece u (.hashMap k v)
  | hashMapValue {k v} : OwnPiece u v → OwnPiece u (.hashMap k v)
  | hashSet {t} : OwnPiece u t → OwnPiece u (.hashSet t)
  | option {t} : OwnPiece u t → OwnPiece u (.option t)
  | nonZero {t} : OwnPiece u t → OwnPiece u (.nonZero t)
  | array {t n} : OwnPiece u t → OwnPiece u (.array t n)
  | tuple {t ts tr} : t ∈ ts → OwnPiece u t → OwnPiece u (.tuple ts tr)

/-- All tuples in a type, also those inside `non_zero`, have two to twelve elements (type arguments of named types
aside). -/
def OwnTuplesOk (t : DataType) : Prop := ∀ ts tr, OwnPiece (.tuple ts tr) t → 2 ≤ ts.length ∧ ts.length ≤ 12

/-- The schemas the Rust generator has code for. -/
structure Supported (s : Ast.Schema) : Prop where
  fields : ∀ d, Occurs s d → ∀ fs, FieldsOf d fs → ∀ t, TypeOf fs t → NonZeroOk t ∧ OwnTuplesOk t
  aliases : ∀ a, Occurs s (.typeAlias a) → NonZeroOk a.target
  consts : ∀ c, Occurs s (.const c) → ConstType c.ty

/-- What validation would have to check in addition: arguments of `non_zero` (in fields and aliases) and the types of
constants. -/
structure NonZeroChecked (s : Ast.Schema) : Prop where
  nonZero : ∀ d, Occurs s d → ∀ t, DefType d t → NonZeroOk t
  inner : ∀ d, Occurs s d → ∀ t, DefType d t → ∀ a, Piece (.nonZero a) t → OwnTuplesOk a
  consts : ∀ c, Occurs s (.const c) → ConstType c.ty

end Mabo.Spec
