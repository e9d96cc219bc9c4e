import Verif.Compiler.Validate
/-!
Model of `crates/mabo-compiler/src/simplify.rs`.

Simplification: the `source` back references are dropped. The result is `none` where `IdGenerator::next` panics
(overflow checks on and an id of `u32::MAX`).
-/
namespace Mabo.Simplify
open Mabo.Schema (Prim FieldKind)

/-- `Type` and `ExternalType`, simplify.rs:231-308. -/
inductive Ty where
  | prim (p : Prim)
  | vec (t : Ty)
  | hashMap (k v : Ty)
  | hashSet (t : Ty)
  | option (t : Ty)
  | nonZero (t : Ty)
  | tuple (ts : List Ty)
  | array (t : Ty) (size : BitVec 32)
  | external (path : List String) (name : String) (generics : List Ty)
deriving Repr

/-- `Field`, simplify.rs:126-139. -/
structure Field where
  comment : List String
  name : String
  ty : Ty
  id : BitVec 32
deriving Repr

/-- `Fields`, simplify.rs:114-123. -/
structure Fields where
  fields : List Field
  kind : FieldKind
deriving Repr

/-- `Variant`, simplify.rs:98-111. -/
structure Variant where
  comment : List String
  name : String
  fields : Fields
  id : BitVec 32
deriving Repr

/-- `Struct`, simplify.rs:68-80. -/
structure Struct where
  comment : List String
  name : String
  generics : List String
  fields : Fields
deriving Repr

/-- `Enum`, simplify.rs:83-95. -/
structure Enum where
  comment : List String
  name : String
  generics : List String
  variants : List Variant
deriving Repr

/-- `TypeAlias`, simplify.rs:163-174. -/
structure TypeAlias where
  comment : List String
  name : String
  generics : List String
  target : Ty
deriving Repr

/-- `Const`, simplify.rs:178-190; `Literal` (simplify.rs:194-205) has the same cases as in the syntax tree. -/
structure Const where
  comment : List String
  name : String
  ty : Ty
  value : Ast.Literal
deriving Repr

/-- `Definition` and `Module` and `Import`, simplify.rs:38-65,209-218. -/
inductive Definition where
  | module (comment : List String) (name : String) (definitions : List Definition)
  | struct (s : Struct)
  | enum (e : Enum)
  | typeAlias (a : TypeAlias)
  | const (c : Const)
  | import (segments : List String) (element : Option String)

/-- `Schema`, simplify.rs:11-19. -/
structure Schema where
  comment : List String
  definitions : List Definition

mutual
/-- `simplify_type`, simplify.rs:425-467. -/
def simplifyType : Ast.DataType → Ty
  | .prim p => .prim p
  | .vec t => .vec (simplifyType t)
  | .hashMap k v => .hashMap (simplifyType k) (simplifyType v)
  | .hashSet t => .hashSet (simplifyType t)
  | .option t => .option (simplifyType t)
  | .nonZero t => .nonZero (simplifyType t)
  | .tuple ts _ => .tuple (simplifyTypes ts)
  | .array t n => .array (simplifyType t) n
  | .external path name generics _ => .external path name (simplifyTypes generics)
/-- `values().map(simplify_type).collect()`. -/
def simplifyTypes : List Ast.DataType → List Ty
  | [] => []
  | t :: ts => simplifyType t :: simplifyTypes ts
end

/-- Named arm of `simplify_fields`, simplify.rs:386-401; `gen` is the state of the id generator. -/
def simplifyNamed (checked : Bool) : BitVec 32 → List Ast.NamedField → Option (List Field)
  | _, [] => some []
  | gen, f :: fs => do
    let (id, gen) ← Compiler.nextId checked gen f.id
    let rest ← simplifyNamed checked gen fs
    pure (⟨f.comment, f.name, simplifyType f.ty, id⟩ :: rest)

/-- Unnamed arm of `simplify_fields`, simplify.rs:402-419; `i` is the position of the head. -/
def simplifyUnnamed (checked : Bool) : Nat → BitVec 32 → List Ast.UnnamedField → Option (List Field)
  | _, _, [] => some []
  | i, gen, f :: fs => do
    let (id, gen) ← Compiler.nextId checked gen f.id
    let rest ← simplifyUnnamed checked (i + 1) gen fs
    pure (⟨[], "n" ++ Nat.repr i, simplifyType f.ty, id⟩ :: rest)

/-- `simplify_fields`, simplify.rs:384-423. -/
def simplifyFields (checked : Bool) : Ast.Fields → Option Fields
  | .named fs _ => do pure ⟨← simplifyNamed checked Compiler.idStart fs, .named⟩
  | .unnamed fs _ => do pure ⟨← simplifyUnnamed checked 0 Compiler.idStart fs, .unnamed⟩
  | .unit => some ⟨[], .unit⟩

/-- `simplify_variant` mapped over the variants, simplify.rs:362-382. -/
def simplifyVariants (checked : Bool) : BitVec 32 → List Ast.Variant → Option (List Variant)
  | _, [] => some []
  | gen, v :: vs => do
    let fields ← simplifyFields checked v.fields
    let (id, gen) ← Compiler.nextId checked gen v.id
    let rest ← simplifyVariants checked gen vs
    pure (⟨v.comment, v.name, fields, id⟩ :: rest)

mutual
/-- `definition` with `simplify_module` … `simplify_import`, simplify.rs:325-369,469-508. -/
def simplifyDefinition (checked : Bool) : Ast.Definition → Option Definition
  | .module comment name ds => do pure (.module comment name (← simplifyDefinitions checked ds))
  | .struct s => do pure (.struct ⟨s.comment, s.name, s.generics, ← simplifyFields checked s.fields⟩)
  | .enum e => do
    pure (.enum ⟨e.comment, e.name, e.generics, ← simplifyVariants checked Compiler.idStart e.variants⟩)
  | .typeAlias a => some (.typeAlias ⟨a.comment, a.name, a.generics, simplifyType a.target⟩)
  | .const c => some (.const ⟨c.comment, c.name, simplifyType c.ty, c.value⟩)
  | .import i => some (.import i.segments i.element)
/-- `definitions`, simplify.rs:321-323. -/
def simplifyDefinitions (checked : Bool) : List Ast.Definition → Option (List Definition)
  | [] => some []
  | d :: ds => do
    let d ← simplifyDefinition checked d
    let ds ← simplifyDefinitions checked ds
    pure (d :: ds)
end

/-- `schema`, simplify.rs:300-306. -/
def simplifySchema (checked : Bool) (s : Ast.Schema) : Option Schema := do
  pure ⟨s.comment, ← simplifyDefinitions checked s.definitions⟩

end Mabo.Simplify
