import Verif.Build.Project
import Verif.Codegen
/-!
The definitions of a crate that includes the generated files, each one as the module named by its stem
(`crates/mabo-build/src/definition.rs`): modules become modules, structs and enums become types, `use a::b::C;` becomes
`use super::a::b::C;`, and a reference `p::q::Name<..>` is written as it stands, so that Rust's rules for paths decide what
it means. From this the environment of `Verif/Schema.lean`, by absolute paths.

Simplifications: type aliases are not followed (the resolver accepts no reference to one), nor are names of Rust's prelude
(`String`, `Vec`, …, which generated code uses unqualified) shadowed by definitions of the schema.
-/
namespace Mabo.Build
open Mabo.Simplify

/-- The generated files by stem. -/
abbrev Files := List (String × Simplify.Schema)

/-- The module of a name in a module: `compile_module`, definition.rs:59-81. -/
def childModule : List Definition → String → Option (List Definition)
  | [], _ => none
  | .module _ n ds :: rest, m => if n = m then some ds else childModule rest m
  | _ :: rest, m => childModule rest m

/-- Modules inside modules. -/
def enter : List Definition → List String → Option (List Definition)
  | ds, [] => some ds
  | ds, m :: ms =>
    match childModule ds m with
    | some ds' => enter ds' ms
    | none => none

/-- The content of the module at an absolute path. -/
def scopeOf (files : Files) : List String → Option (List Definition)
  | [] => none
  | stem :: mods =>
    match files.find? (fun f => decide (f.1 = stem)) with
    | some f => enter f.2.definitions mods
    | none => none

/-- A type: `compile_struct` and `compile_enum`, definition.rs:83-130. -/
inductive Item where
  | struct (s : Struct)
  | enum (e : Enum)

/-- Its type parameters. -/
def Item.generics : Item → List String
  | .struct s => s.generics
  | .enum e => e.generics

/-- The type of a name in a module. -/
def findItem : List Definition → String → Option Item
  | [], _ => none
  | .struct s :: rest, n => if s.name = n then some (.struct s) else findItem rest n
  | .enum e :: rest, n => if e.name = n then some (.enum e) else findItem rest n
  | _ :: rest, n => findItem rest n

/-- The import of a name in a module, `compile_import`, definition.rs:194-217: the path behind `super::`. -/
def importOf : List Definition → String → Option (List String)
  | [], _ => none
  | .import segments (some e) :: rest, n => if e = n then some (segments ++ [e]) else importOf rest n
  | .import segments none :: rest, n => if segments.getLast? = some n then some segments else importOf rest n
  | _ :: rest, n => importOf rest n

/-- What the path `path::name` means in the module at `m`, as an absolute path: a type or module of the module itself, or
an import of the module itself (`super` is the module around it). -/
def resolvePath (files : Files) (m path : List String) (name : String) : Option (List String) :=
  match scopeOf files m with
  | none => none
  | some scope =>
    match path with
    | [] => if (findItem scope name).isSome then some (m ++ [name]) else (importOf scope name).map (m.dropLast ++ ·)
    | p :: rest =>
      if (childModule scope p).isSome then some (m ++ (p :: rest) ++ [name])
      else (importOf scope p).map fun i => m.dropLast ++ i ++ rest ++ [name]

mutual
/-- `compile_data_type`, definition.rs:259-355; a reference that means nothing gets the empty path, which no type has. -/
def lowerTy (look : List String → String → Option (List String)) (generics : List String) : Ty → Schema.Ty
  | .prim p => .prim p
  | .vec t => .vec (lowerTy look generics t)
  | .hashMap k v => .hashMap (lowerTy look generics k) (lowerTy look generics v)
  | .hashSet t => .hashSet (lowerTy look generics t)
  | .option t => .option (lowerTy look generics t)
  | .nonZero t => .nonZero (lowerTy look generics t)
  | .tuple ts => .tuple (lowerTys look generics ts)
  | .array t n => .array (lowerTy look generics t) n.toNat
  | .external path name args =>
    if path = [] ∧ name ∈ generics then .param (generics.idxOf name)
    else .ext ((look path name).getD []) (lowerTys look generics args)
/-- On all types. -/
def lowerTys (look : List String → String → Option (List String)) (generics : List String) : List Ty → List Schema.Ty
  | [] => []
  | t :: ts => lowerTy look generics t :: lowerTys look generics ts
end

/-- `compile_fields`, definition.rs:230-257. -/
def lowerFields (look : List String → String → Option (List String)) (generics : List String) (fs : Fields) :
    Schema.Fields :=
  ⟨fs.kind, fs.fields.map fun f => ⟨f.name, lowerTy look generics f.ty, f.id⟩⟩

/-- The definition of a type. -/
def lowerItem (look : List String → String → Option (List String)) : Item → Schema.Def
  | .struct s => .struct (lowerFields look s.generics s.fields)
  | .enum e => .enum (e.variants.map fun v => ⟨v.name, lowerFields look e.generics v.fields, v.id⟩)

/-- The type at an absolute path. -/
def itemAt (files : Files) (abs : List String) : Option Item :=
  match scopeOf files abs.dropLast, abs.getLast? with
  | some scope, some name => findItem scope name
  | _, _ => none

/-- All types of the crate. -/
def crateEnv (files : Files) : Schema.Env := fun abs =>
  (itemAt files abs).map (lowerItem (resolvePath files abs.dropLast))

end Mabo.Build
