import Verif.Spec.Generator
/-! What the Go generator can translate. -/
namespace Mabo.Spec.Go
open Mabo Mabo.Ast Mabo.Spec

/-- Types that have a non-zero variant among the Go types: like `NonZeroAble`, and in addition the floating point types. -/
def NonZeroName : DataType → Prop
  | .prim p => p ≠ .bool ∧ p ≠ .boxString ∧ p ≠ .boxBytes
  | .vec _ | .hashMap _ _ | .hashSet _ => True
  | _ => False

/-- A Go type can be named for every part of the type. -/
def Nameable (t : DataType) : Prop := ∀ a, Piece (.nonZero a) t → NonZeroName a

/-- There are Go functions to encode, decode and measure a value of this shape. -/
def HasCodec : DataType → Prop
  | .nonZero a => NonZeroAble a
  | .tuple ts _ => 2 ≤ ts.length ∧ ts.length ≤ 12
  | .array _ n => 1 ≤ n.toNat ∧ n.toNat ≤ 32
  | _ => True

/-- The schemas the Go generator has code for. -/
structure Supported (s : Ast.Schema) : Prop where
  fields : ∀ d, Occurs s d → ∀ fs, FieldsOf d fs → ∀ t, TypeOf fs t → Nameable t ∧ ∀ u, OwnPiece u t → HasCodec u
  aliases : ∀ a, Occurs s (.typeAlias a) → Nameable a.target
  consts : ∀ c, Occurs s (.const c) → ConstType c.ty

/-- All arrays have 1 to 32 elements. -/
def SmallArrays (s : Ast.Schema) : Prop :=
  ∀ d, Occurs s d → ∀ fs, FieldsOf d fs → ∀ t, TypeOf fs t → ∀ u n, OwnPiece (.array u n) t → 1 ≤ n.toNat ∧ n.toNat ≤ 32

/-- A module, at any depth below these definitions: the names down to it, its comment and its definitions. -/
inductive ModuleIn : List Definition → List String → List String → List Definition → Prop where
  | here {ds inner : List Definition} {comment : List String} {name : String} :
      Definition.module comment name inner ∈ ds → ModuleIn ds [name] comment inner
  | enter {ds mid inner : List Definition} {comment outer : List String} {name : String} {path : List String} :
      Definition.module outer name mid ∈ ds → ModuleIn mid path comment inner → ModuleIn ds (name :: path) comment inner

/-- The path of the Go file for the package or module that these names lead to: a directory for each of them, in which the
file has the name of the last. -/
def goPath (out : List (List Char)) (names : List String) : List (List Char) :=
  out ++ names.map String.toList ++ [(names.getLast?.getD "").toList ++ ".go".toList]

end Mabo.Spec.Go
