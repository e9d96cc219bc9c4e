import Verif.Rust.Run
import Verif.Spec.Layout
/-!
The emitted type definitions: crates/mabo-build/src/definition.rs.
-/
namespace Mabo.Layout
open Mabo.Rust Mabo.Build

/-- The types of all fields of a struct or enum. -/
def fieldTypes : Build.Item → List Simplify.Ty
  | .struct s => s.fields.fields.map (·.ty)
  | .enum e => (e.variants.flatMap (·.fields.fields)).map (·.ty)

/-- The same, as the generator writes them (`compile_fields`, definition.rs:230-257): `pub name: T`, if it can write all of
them. -/
def written (o : BytesType) (it : Build.Item) : Option (List TyE) := tyTexts o (fieldTypes it)

/-- The type definitions of the generated crate (`compile_struct` and `compile_enum`, definition.rs:83-130): what is written,
read the way Rust reads it in the module around. `none` if Rust does not know one of the types. -/
def defsOf (files : Files) (o : BytesType) : Defs := fun abs => do
  let it ← itemAt files abs
  let es ← written o it
  let ts ← readTys (scopeAt files abs.dropLast it.generics) es
  pure (it.generics.length, ts)

end Mabo.Layout
