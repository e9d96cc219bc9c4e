import Verif.Rust.Good
import Verif.Rust.Run
/-!
Definitions for which the generated code compiles (`crates/mabo-build/src/{encode,size,decode}.rs`).
-/
namespace Mabo.Rust
open Mabo.Schema (Prim Ty FieldKind)
open Mabo.Build (Files)

/-- No definition, import or type parameter has the name, so it can mean a type of Rust's prelude. -/
def nameFree (sc : Scope) (n : String) : Bool := !sc.generics.contains n && (sc.look [] n).isNone && !sc.other n

/-- The names of Rust's prelude and primitive types with which `primTy` writes a leaf type. -/
def primNames (o : BytesType) : Prim → List String
  | .bool => ["bool"]
  | .u8 => ["u8"]
  | .u16 => ["u16"]
  | .u32 => ["u32"]
  | .u64 => ["u64"]
  | .u128 => ["u128"]
  | .i8 => ["i8"]
  | .i16 => ["i16"]
  | .i32 => ["i32"]
  | .i64 => ["i64"]
  | .i128 => ["i128"]
  | .f32 => ["f32"]
  | .f64 => ["f64"]
  | .string | .stringRef => ["String"]
  | .bytes | .bytesRef =>
    match o with
    | .vecU8 => ["Vec", "u8"]
    | .bytes => []
  | .boxString => ["Box", "str"]
  | .boxBytes => ["Box", "u8"]

/-- The constructors of the prelude that the code around the fields mentions: every function `decode` has an `Ok`, those of
enums an `Err` for unknown variants. -/
def valuesGood (sc : Scope) : Build.Item → Bool
  | .struct _ => !sc.values "Ok"
  | .enum _ => !sc.values "Ok" && !sc.values "Err"

/-- The variable of a field in `decode`, `let mut x: Option<T> = None`, and the assignment `x = Some(..)`. -/
def slotFree (sc : Scope) : Bool := nameFree sc "Option" && !sc.values "None" && !sc.values "Some"

mutual
/-- Can the type be written down? The argument of `non_zero` must be supported, type parameters have no arguments, other
names must mean a type with that many parameters, and names of the prelude must mean those of the prelude. -/
def textOk (o : BytesType) (sc : Scope) : Simplify.Ty → Bool
  | .prim p => (primNames o p).all (nameFree sc)
  | .vec t => nameFree sc "Vec" && textOk o sc t
  | .option t => nameFree sc "Option" && textOk o sc t
  | .hashSet t | .array t _ => textOk o sc t
  | .hashMap k v => textOk o sc k && textOk o sc v
  | .nonZero (.prim p) => nzPrim p
  | .nonZero (.vec t) | .nonZero (.hashSet t) => textOk o sc t
  | .nonZero (.hashMap k v) => textOk o sc k && textOk o sc v
  | .nonZero _ => false
  | .tuple ts => textOks o sc ts
  | .external path name args =>
    if path = [] ∧ name ∈ sc.generics then args.isEmpty
    else
      (match sc.look path name with
       | some abs => sc.arity abs = some args.length
       | none => false) && textOks o sc args
/-- All of them. -/
def textOks (o : BytesType) (sc : Scope) : List Simplify.Ty → Bool
  | [] => true
  | t :: ts => textOk o sc t && textOks o sc ts
end

/-- A name of a field that clashes with nothing in the generated functions. -/
def nameGood (n : String) : Bool := !keywords.contains n && n ≠ "w" && n ≠ "r" && n ≠ "id"

/-- The type of a field and of its variable can be written down. -/
def fieldText (o : BytesType) (sc : Scope) (t : Simplify.Ty) : Bool := slotFree sc && textOk o sc t

/-- A field for which code can be generated. -/
def fieldGood (o : BytesType) (sc : Scope) (f : Simplify.Field) : Bool :=
  nameGood f.name && fieldText o sc f.ty && refOk o sc.arity 0 (Build.lowerTy sc.look sc.generics f.ty) &&
    decOk o sc.arity (Build.lowerTy sc.look sc.generics f.ty)

/-- All fields of a struct or variant. -/
def fieldsGood (o : BytesType) (sc : Scope) (fs : Simplify.Fields) : Bool :=
  (fs.kind ≠ .unit || fs.fields.isEmpty) && decide (fs.fields.map (·.name)).Nodup && fs.fields.all (fieldGood o sc)

/-- A struct or enum. -/
def itemGood (o : BytesType) (sc : Scope) : Build.Item → Bool
  | .struct s => fieldsGood o sc s.fields
  | .enum e => !e.variants.isEmpty && decide (e.variants.map (·.name)).Nodup &&
    e.variants.all fun v => !keywords.contains v.name && fieldsGood o sc v.fields

/-- All structs and enums of the crate. -/
def CrateGood (files : Files) (o : BytesType) : Prop :=
  ∀ abs it, Build.itemAt files abs = some it →
    valuesGood (scopeAt files abs.dropLast it.generics) it = true ∧
      itemGood o (scopeAt files abs.dropLast it.generics) it = true

end Mabo.Rust
