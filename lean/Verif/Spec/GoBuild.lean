import Verif.Spec.Go
import Verif.Go.Render
import Verif.Spec.GoRules
/-! What the definitions of a schema or module have to be like for their Go code to be valid. -/
namespace Mabo.Spec.GoBuild
open Mabo Mabo.Ast Mabo.Spec
open Mabo.Go (upperCamel lowerCamel)
open Mabo.Parse (Text)

/-- `u` is part of `t`, anywhere, but not as the argument of `non_zero<..>` itself. -/
inductive Bare (u : DataType) : DataType → Prop where
  | here : Bare u u
  | vec {t} : Bare u t → Bare u (.vec t)
  | hashMapKey {k v} : Bare u k → Bare u (.hashMap k v)
  | hashMapValue {k v} : Bare u v → Bare u (.hashMap k v)
  | hashSet {t} : Bare u t → Bare u (.hashSet t)
  | option {t} : Bare u t → Bare u (.option t)
  | array {t n} : Bare u t → Bare u (.array t n)
  | tuple {t ts tr} : t ∈ ts → Bare u t → Bare u (.tuple ts tr)
  | argument {t path name args tr} : t ∈ args → Bare u t → Bare u (.external path name args tr)
  | nonZeroVec {t} : Bare u t → Bare u (.nonZero (.vec t))
  | nonZeroKey {k v} : Bare u k → Bare u (.nonZero (.hashMap k v))
  | nonZeroValue {k v} : Bare u v → Bare u (.nonZero (.hashMap k v))
  | nonZeroSet {t} : Bare u t → Bare u (.nonZero (.hashSet t))

/-- The type of a field of a struct or variant of these definitions. -/
def FieldType (ds : List Definition) (t : DataType) : Prop := ∃ d ∈ ds, ∃ fs, FieldsOf d fs ∧ TypeOf fs t

/-- The type of a field or the target of an alias. -/
def AnyType (ds : List Definition) (t : DataType) : Prop := FieldType ds t ∨ ∃ a, Definition.typeAlias a ∈ ds ∧ t = a.target

/-- Types that are declared in the runtime library's package `mabo`: those of `non_zero` and tuples, and what a reference into a
module of that name says. -/
def IsRuntime : DataType → Prop
  | .nonZero _ | .tuple _ _ => True
  | .external path _ _ _ => path.getLast? = some "mabo"
  | _ => False

/-- Go types whose values cannot be compared are no keys. -/
def Comparable : DataType → Prop
  | .prim .bytes | .prim .bytesRef | .prim .boxBytes | .vec _ | .hashMap _ _ | .hashSet _ => False
  | .array t _ => Comparable t
  | _ => True

/-- The names that a definition has in Go: for types also those of the function `New..`. -/
def goNames : Definition → List Text
  | .struct s => [upperCamel s.name.toList, "New".toList ++ upperCamel s.name.toList]
  | .enum e => [upperCamel e.name.toList ++ "Variant".toList, upperCamel e.name.toList] ++ e.variants.flatMap fun v =>
      [upperCamel e.name.toList ++ ['_'] ++ upperCamel v.name.toList,
        "New".toList ++ (upperCamel e.name.toList ++ ['_'] ++ upperCamel v.name.toList)]
  | .typeAlias a => [upperCamel a.name.toList]
  | .const c => [upperCamel c.name.toList]
  | .module _ _ _ | .import _ => []

/-- The Go names of fields. -/
def goFields : Fields → List Text
  | .named fs _ => fs.map fun f => upperCamel f.name.toList
  | .unnamed fs _ => fs.mapIdx fun i _ => upperCamel ("n" ++ Nat.repr i).toList
  | .unit => []

/-- The names of the parameters of the constructor. -/
def goParams : Fields → List Text
  | .named fs _ => fs.map fun f => lowerCamel f.name.toList
  | .unnamed fs _ => fs.mapIdx fun i _ => lowerCamel ("n" ++ Nat.repr i).toList
  | .unit => []

/-- A struct or a variant: its Go name, the type parameters of the definition and the fields. -/
inductive Item (ds : List Definition) : Text → List String → Fields → Prop where
  | struct (s : Struct) : .struct s ∈ ds → Item ds (upperCamel s.name.toList) s.generics s.fields
  | variant (e : Enum) (v : Variant) : .enum e ∈ ds → v ∈ e.variants →
      Item ds (upperCamel e.name.toList ++ ['_'] ++ upperCamel v.name.toList) e.generics v.fields

/-- The values of a Go integer type. -/
def intRange : Schema.Prim → Option (Int × Int)
  | .u8 => some (0, 2 ^ 8 - 1)
  | .u16 => some (0, 2 ^ 16 - 1)
  | .u32 => some (0, 2 ^ 32 - 1)
  | .u64 => some (0, 2 ^ 64 - 1)
  | .i8 => some (-2 ^ 7, 2 ^ 7 - 1)
  | .i16 => some (-2 ^ 15, 2 ^ 15 - 1)
  | .i32 => some (-2 ^ 31, 2 ^ 31 - 1)
  | .i64 => some (-2 ^ 63, 2 ^ 63 - 1)
  | _ => none

/-- The value is one of the type in Go, as far as it is checked: numbers with a fraction are accepted for all numeric types. -/
def ConstFits : DataType → Literal → Prop
  | .prim .bool, .bool _ => True
  | .prim .f32, .int _ | .prim .f64, .int _ => True
  | .prim p, .int i => ∃ r, intRange p = some r ∧ r.1 ≤ i ∧ i ≤ r.2
  | .prim p, .float _ => p = .f32 ∨ p = .f64 ∨ ∃ r, intRange p = some r
  | .prim p, .string _ => p = .string ∨ p = .stringRef
  | .prim p, .bytes bs => (p = .bytes ∨ p = .bytesRef) ∧ bs ≠ []
  | _, _ => False

/-- What the definitions of a schema or module have to be like. -/
structure Good (name : String) (ds : List Definition) : Prop where
  /-- The name of the package is no keyword. -/
  package : Mabo.Go.snake name.toList ∉ GoRules.keywords
  /-- The package `buf` is used. -/
  items : ∃ x gens fs, Item ds x gens fs
  /-- The package `mabo` is used. -/
  runtime : ∃ t, AnyType ds t ∧ ∃ u, Piece u t ∧ IsRuntime u
  /-- The names of the package are different. -/
  names : (ds.flatMap goNames).Nodup
  /-- The fields of a struct are different from each other and from its methods. -/
  fields : ∀ x gens fs, Item ds x gens fs →
    (goFields fs).Nodup ∧ "Encode".toList ∉ goFields fs ∧ "Decode".toList ∉ goFields fs ∧ "Size".toList ∉ goFields fs
  /-- The parameters of its constructor are different from each other and from the type, and no keywords. -/
  params : ∀ x gens fs, Item ds x gens fs →
    (goParams fs).Nodup ∧ (∀ p ∈ goParams fs, p ∉ GoRules.keywords) ∧ x ∉ goParams fs
  /-- No field has a tuple. -/
  tuples : ∀ t, FieldType ds t → ∀ ts tr, ¬ OwnPiece (.tuple ts tr) t
  /-- There are no integers of 128 bits. -/
  wide : ∀ t, AnyType ds t → ¬ Bare (.prim .u128) t ∧ ¬ Bare (.prim .i128) t
  /-- The keys of maps and elements of sets are comparable. -/
  keys : ∀ t, AnyType ds t → (∀ k v, Bare (.hashMap k v) t → Comparable k) ∧ ∀ k, Bare (.hashSet k) t → Comparable k
  /-- Constants have values of their types. -/
  consts : ∀ c, Definition.const c ∈ ds → ConstFits c.ty c.value

/-- There are no references to other types. -/
def NoReferences (ds : List Definition) : Prop := ∀ t, AnyType ds t → ∀ path x args tr, ¬ Piece (.external path x args tr) t

/-- There are no structs and enums with type parameters. -/
def NoGenerics (ds : List Definition) : Prop := ∀ x gens fs, Item ds x gens fs → gens = []

end Mabo.Spec.GoBuild
