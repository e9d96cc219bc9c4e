import Verif.Rust.Syntax
/-!
What Rust demands of the names in a module: they are declared once in each namespace (E0428, E0252, E0255), and imports lead to
something (E0432).
-/
namespace Mabo.Clash
open Mabo.Rust (Item)

/-- Which absolute paths of a crate are types or modules, and which are values (constructors and constants). -/
structure Crate where
  types : List String → Bool
  values : List String → Bool

/-- The name that an import brings in: the last one of its path. -/
def lastName (path : List String) : List String := path.getLast?.toList

/-- The absolute path behind `use super::…` in the module `m`. -/
def target (m path : List String) : List String := m.dropLast ++ path

/-- The names that an item of the module `m` declares among the types, modules and traits. The import at the beginning of each
module (`use ::mabo::buf::{Decode, Encode, Size};`) declares the three traits. -/
def typeNames (c : Crate) (m : List String) : Item → List String
  | .traits => ["Decode", "Encode", "Size"]
  | .module _ n _ | .struct _ n _ _ _ | .enum _ n _ _ | .alias _ n _ _ => [n]
  | .import path => if c.types (target m path) then lastName path else []
  | .const _ _ _ _ | .impl _ => []

/-- The names that an item declares among the values: structs without named fields are functions or constants as well. -/
def valueNames (c : Crate) (m : List String) : Item → List String
  | .struct _ n _ kind _ => if kind = .named then [] else [n]
  | .const _ n _ _ => [n]
  | .import path => if c.values (target m path) then lastName path else []
  | .traits | .module _ _ _ | .enum _ _ _ _ | .alias _ _ _ _ | .impl _ => []

/-- The items can be those of the module `m`. -/
structure Fine (c : Crate) (m : List String) (items : List Item) : Prop where
  types : (items.flatMap (typeNames c m)).Nodup
  values : (items.flatMap (valueNames c m)).Nodup
  imports : ∀ path, .import path ∈ items → c.types (target m path) = true ∨ c.values (target m path) = true

end Mabo.Clash
