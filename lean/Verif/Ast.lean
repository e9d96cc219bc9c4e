import Verif.Schema
/-!
Syntax tree of schema files, `crates/mabo-parser/src/lib.rs`.

Simplifications: source spans and pure tokens are dropped. A `Punctuated` list (punctuated.rs:15-20) is the list of
its values together with a flag for the trailing separator; it is never empty in the Rust code, so `[]` stands for an
absent optional list (`generics: None`). An `Import` keeps only its segments and element.
-/
namespace Mabo.Ast
open Mabo.Schema (Prim)

/-- `DataType` (and `Type`, which adds a span), lib.rs:840-990. The leaves are those of the simplified schema. `external`
carries path, name, type arguments (`[]`: none) and the trailing comma flag. -/
inductive DataType where
  | prim (p : Prim)
  | vec (t : DataType)
  | hashMap (k v : DataType)
  | hashSet (t : DataType)
  | option (t : DataType)
  | nonZero (t : DataType)
  | tuple (ts : List DataType) (trailing : Bool)
  | array (t : DataType) (size : BitVec 32)
  | external (path : List String) (name : String) (generics : List DataType) (trailing : Bool)
deriving Repr

/-- `NamedField`, lib.rs:594-607 (comment kept as its lines). -/
structure NamedField where
  comment : List String := []
  name : String
  ty : DataType
  id : Option (BitVec 32)
deriving Repr

/-- `UnnamedField`, lib.rs:654-661. -/
structure UnnamedField where
  ty : DataType
  id : Option (BitVec 32)
deriving Repr

/-- `Fields`, lib.rs:540-562. -/
inductive Fields where
  | named (fs : List NamedField) (trailing : Bool := false)
  | unnamed (fs : List UnnamedField) (trailing : Bool := false)
  | unit
deriving Repr

/-- `Variant`, lib.rs:435-446. -/
structure Variant where
  comment : List String := []
  name : String
  fields : Fields
  id : Option (BitVec 32)
deriving Repr

/-- `LiteralValue`, lib.rs:1251-1262; a float is its bit pattern. -/
inductive Literal where
  | bool (b : Bool)
  | int (i : Int)
  | float (bits : BitVec 64)
  | string (s : String)
  | bytes (b : List UInt8)
deriving Repr

/-- `Attribute` with its `AttributeValue`, lib.rs:788-792 and 812-819 (one constructor for each kind of value). -/
inductive Attribute where
  | unit (name : String)
  | single (name : String) (value : Literal)
  | multi (name : String) (values : List Attribute)
deriving Repr

/-- `Struct`, lib.rs:321-334. -/
structure Struct where
  comment : List String := []
  attributes : List Attribute := []
  name : String
  generics : List String
  genericsTrailing : Bool := false
  fields : Fields
deriving Repr

/-- `Enum`, lib.rs:383-398. -/
structure Enum where
  comment : List String := []
  attributes : List Attribute := []
  name : String
  generics : List String
  genericsTrailing : Bool := false
  variants : List Variant
  variantsTrailing : Bool := false
deriving Repr

/-- `TypeAlias`, lib.rs:492-507. -/
structure TypeAlias where
  comment : List String := []
  name : String
  generics : List String
  genericsTrailing : Bool := false
  target : DataType
deriving Repr

/-- `Const`, lib.rs:1173-1190. -/
structure Const where
  comment : List String := []
  name : String
  ty : DataType
  value : Literal
deriving Repr

/-- `Import`, lib.rs:1278-1290. -/
structure Import where
  segments : List String
  element : Option String
deriving Repr

/-- `Definition`, lib.rs:192-206; `module` holds the fields of `Module`. -/
inductive Definition where
  | module (comment : List String) (name : String) (definitions : List Definition)
  | struct (s : Struct)
  | enum (e : Enum)
  | typeAlias (a : TypeAlias)
  | const (c : Const)
  | import (i : Import)

/-- `Schema`, lib.rs:135-145 (path and source text dropped). -/
structure Schema where
  comment : List String := []
  definitions : List Definition

end Mabo.Ast
