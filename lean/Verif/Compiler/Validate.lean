import Verif.Ast
/-!
Model of `crates/mabo-compiler/src/lib.rs` (`IdGenerator`) and `crates/mabo-compiler/src/validate/*.rs`.

Simplifications: source locations in diagnostics are dropped. `u32` overflow in `IdGenerator::next` is a panic when
overflow checks are on (`checked = true`, debug builds) and wraps otherwise (`checked = false`, release builds); both
are modelled. Hash maps used as "visited" sets are association lists.
-/
namespace Mabo.Compiler
open Mabo.Ast

/-- Result of a validation step: `Ok(())`, `Err(e)` or a panic. -/
inductive Outcome (ε : Type) where
  | ok
  | err (e : ε)
  | panic
deriving DecidableEq, Repr

/-- `a?; b`. -/
def Outcome.andThen {ε : Type} : Outcome ε → Outcome ε → Outcome ε
  | .ok, b => b
  | .err e, _ => .err e
  | .panic, _ => .panic

/-- `map_err(Into::into)`. -/
def Outcome.mapErr {ε ε' : Type} (f : ε → ε') : Outcome ε → Outcome ε'
  | .ok => .ok
  | .err e => .err (f e)
  | .panic => .panic

/-- `iter().try_for_each(f)`. -/
def tryForEach {α ε : Type} (f : α → Outcome ε) : List α → Outcome ε
  | [] => .ok
  | x :: xs => (f x).andThen (tryForEach f xs)

/-- `IdGenerator::new`, lib.rs:42-44: the first id. -/
def idStart : BitVec 32 := 1

/-- `IdGenerator::next`, lib.rs:51-55 (also `next_with_span`, 62-74): the id and the new generator state; `none` is the
overflow panic of `id + 1`. -/
def nextId (checked : Bool) (gen : BitVec 32) (id : Option (BitVec 32)) : Option (BitVec 32 × BitVec 32) :=
  let id := match id with | some i => i | none => gen
  if checked ∧ id.toNat + 1 = 2 ^ 32 then none else some (id, id + 1)

/-- `visited.insert(key, value)`: the previous value of the key, if any (the caller stops then), else the map with the
new entry. -/
def visit {κ ν : Type} [DecidableEq κ] (k : κ) (v : ν) (m : List (κ × ν)) : ν ⊕ List (κ × ν) :=
  match m.find? (fun e => e.1 == k) with
  | some e => .inl e.2
  | none => .inr ((k, v) :: m)

/-! ### validate/ids.rs -/

/-- `DuplicateId` and below, ids.rs:11-91. -/
inductive DuplicateId where
  | variant (id : BitVec 32) (name otherName : String)
  | named (id : BitVec 32) (name otherName : String)
  | unnamed (id : BitVec 32) (position otherPosition : Nat)
deriving DecidableEq, Repr

/-- Named part of `validate_field_ids`, ids.rs:134-153 (`find_map` over the fields). -/
def namedIds (checked : Bool) : BitVec 32 → List (BitVec 32 × String) → List NamedField → Outcome DuplicateId
  | _, _, [] => .ok
  | gen, visited, f :: fs =>
    match nextId checked gen f.id with
    | none => .panic
    | some (id, gen) =>
      match visit id f.name visited with
      | .inl other => .err (.named id f.name other)
      | .inr visited => namedIds checked gen visited fs

/-- Unnamed part of `validate_field_ids`, ids.rs:154-176; `pos` is the 0-based position of the head. -/
def unnamedIds (checked : Bool) : Nat → BitVec 32 → List (BitVec 32 × Nat) → List UnnamedField → Outcome DuplicateId
  | _, _, _, [] => .ok
  | pos, gen, visited, f :: fs =>
    match nextId checked gen f.id with
    | none => .panic
    | some (id, gen) =>
      match visit id pos visited with
      | .inl other => .err (.unnamed id (pos + 1) (other + 1))
      | .inr visited => unnamedIds checked (pos + 1) gen visited fs

/-- `validate_field_ids`, ids.rs:132-181 (also `validate_struct_ids`, 94-96). -/
def validateFieldIds (checked : Bool) : Fields → Outcome DuplicateId
  | .named fs _ => namedIds checked idStart [] fs
  | .unnamed fs _ => unnamedIds checked 0 idStart [] fs
  | .unit => .ok

/-- `find_map` of `validate_enum_ids`, ids.rs:104-128: per variant first the variant id, then its fields. -/
def variantIds (checked : Bool) : BitVec 32 → List (BitVec 32 × String) → List Variant → Outcome DuplicateId
  | _, _, [] => .ok
  | gen, visited, v :: vs =>
    match nextId checked gen v.id with
    | none => .panic
    | some (id, gen) =>
      match visit id v.name visited with
      | .inl other => .err (.variant id v.name other)
      | .inr visited =>
        (validateFieldIds checked v.fields).andThen (variantIds checked gen visited vs)

/-- `validate_enum_ids`, ids.rs:100-129. -/
def validateEnumIds (checked : Bool) (e : Enum) : Outcome DuplicateId := variantIds checked idStart [] e.variants

/-! ### validate/names.rs -/

/-- `DuplicateName` and below, names.rs:9-70. -/
inductive DuplicateName where
  | variant (name : String)
  | field (name : String)
  | inModule (name : String)
deriving DecidableEq, Repr

/-- Named fields of `validate_field_names`, names.rs:107-120. -/
def fieldNames : List (String × Unit) → List NamedField → Outcome DuplicateName
  | _, [] => .ok
  | visited, f :: fs =>
    match visit f.name () visited with
    | .inl _ => .err (.field f.name)
    | .inr visited => fieldNames visited fs

/-- `validate_field_names`, names.rs:104-126 (also `validate_struct_names`, 73-75). -/
def validateFieldNames : Fields → Outcome DuplicateName
  | .named fs _ => fieldNames [] fs
  | .unnamed _ _ | .unit => .ok

/-- `find_map` of `validate_enum_names`, names.rs:81-100. -/
def variantNames : List (String × Unit) → List Variant → Outcome DuplicateName
  | _, [] => .ok
  | visited, v :: vs =>
    match visit v.name () visited with
    | .inl _ => .err (.variant v.name)
    | .inr visited => (validateFieldNames v.fields).andThen (variantNames visited vs)

/-- `validate_enum_names`, names.rs:79-101. -/
def validateEnumNames (e : Enum) : Outcome DuplicateName := variantNames [] e.variants

/-- The name a definition introduces, names.rs:133-144; `none` for an import without segments. -/
def definitionName : Definition → Option String
  | .module _ name _ => some name
  | .struct s => some s.name
  | .enum e => some e.name
  | .typeAlias a => some a.name
  | .const c => some c.name
  | .import i => match i.element with
    | some name => some name
    | none => i.segments.getLast?

/-- `find_map` of `validate_names_in_module`, names.rs:130-153. -/
def moduleNames : List (String × Unit) → List Definition → Outcome DuplicateName
  | _, [] => .ok
  | visited, d :: ds =>
    match definitionName d with
    | none => moduleNames visited ds
    | some name =>
      match visit name () visited with
      | .inl _ => .err (.inModule name)
      | .inr visited => moduleNames visited ds

/-- `validate_names_in_module`, names.rs:128-155. -/
def validateNamesInModule (ds : List Definition) : Outcome DuplicateName := moduleNames [] ds

/-! ### validate/generics.rs -/

/-- `InvalidGenericType`, generics.rs:9-46. -/
inductive InvalidGeneric where
  | duplicate (name : String)
  | unused (name : String)
deriving DecidableEq, Repr

/-- `validate_duplicate_generics`, generics.rs:103-119. -/
def duplicateGenerics : List (String × Unit) → List String → Outcome InvalidGeneric
  | _, [] => .ok
  | visited, g :: gs =>
    match visit g () visited with
    | .inl _ => .err (.duplicate g)
    | .inr visited => duplicateGenerics visited gs

mutual
/-- `visit_externals`, generics.rs:148-191, as the list of visited external types (path, name, arguments) in order.
The argument of `non_zero` is not visited. -/
def visitExternals : DataType → List (List String × String × List DataType)
  | .prim _ | .nonZero _ => []
  | .vec t | .hashSet t | .option t | .array t _ => visitExternals t
  | .hashMap k v => visitExternals k ++ visitExternals v
  | .tuple ts _ => visitExternalsList ts
  | .external path name generics _ => (path, name, generics) :: visitExternalsList generics
/-- `for ty in types.values() { visit_externals(ty, visit) }`. -/
def visitExternalsList : List DataType → List (List String × String × List DataType)
  | [] => []
  | t :: ts => visitExternals t ++ visitExternalsList ts
end

/-- Closure in `validate_field_generics`, generics.rs:126-130: remove the name of a plain reference. -/
def markUsed (unvisited : List String) (e : List String × String × List DataType) : List String :=
  if e.1.isEmpty ∧ e.2.2.isEmpty then unvisited.filter (· != e.2.1) else unvisited

/-- Field types in order. -/
def fieldTypes : Fields → List DataType
  | .named fs _ => fs.map (·.ty)
  | .unnamed fs _ => fs.map (·.ty)
  | .unit => []

/-- `validate_field_generics`, generics.rs:123-144. -/
def fieldGenerics (fields : Fields) (unvisited : List String) : List String :=
  (fieldTypes fields).foldl (fun u t => (visitExternals t).foldl markUsed u) unvisited

/-- End of `validate_struct_generics`, generics.rs:64-70: some left-over name (the first in the order of the
declaration; the Rust hash map may pick another). -/
def unusedError (unvisited : List String) : Outcome InvalidGeneric :=
  match unvisited with
  | [] => .ok
  | name :: _ => .err (.unused name)

/-- `validate_struct_generics`, generics.rs:49-71. -/
def validateStructGenerics (s : Struct) : Outcome InvalidGeneric :=
  if s.generics.isEmpty then .ok
  else (duplicateGenerics [] s.generics).andThen (unusedError (fieldGenerics s.fields s.generics))

/-- `validate_enum_generics`, generics.rs:74-98. -/
def validateEnumGenerics (e : Enum) : Outcome InvalidGeneric :=
  if e.generics.isEmpty then .ok
  else (duplicateGenerics [] e.generics).andThen
    (unusedError (e.variants.foldl (fun u v => fieldGenerics v.fields u) e.generics))

/-! ### validate/tuples.rs -/

/-- `InvalidTupleAmount`, tuples.rs:32-39. -/
inductive TupleSize where
  | empty | single | tooLarge
deriving DecidableEq, Repr

/-- Closure of `validate_tuple_size`, tuples.rs:75-82. -/
def tupleAmount (n : Nat) : Outcome TupleSize :=
  if n = 0 then .err .empty
  else if n = 1 then .err .single
  else if n ≤ 12 then .ok
  else .err .tooLarge

mutual
/-- `validate_tuple_size` with `visit_tuples`, tuples.rs:73-135. The argument of `non_zero` is not visited. -/
def tupleSizes : DataType → Outcome TupleSize
  | .prim _ | .nonZero _ => .ok
  | .vec t | .hashSet t | .option t | .array t _ => tupleSizes t
  | .hashMap k v => (tupleSizes k).andThen (tupleSizes v)
  | .tuple ts _ => (tupleAmount ts.length).andThen (tupleSizesList ts)
  | .external _ _ generics _ => tupleSizesList generics
/-- `try_for_each(|ty| visit_tuples(ty, visit))`. -/
def tupleSizesList : List DataType → Outcome TupleSize
  | [] => .ok
  | t :: ts => (tupleSizes t).andThen (tupleSizesList ts)
end

/-- `validate_field_tuples`, tuples.rs:52-62 (also `validate_struct_tuples`, 41-43). -/
def validateFieldTuples (f : Fields) : Outcome TupleSize := tryForEach tupleSizes (fieldTypes f)

/-- `validate_enum_tuples`, tuples.rs:45-50. -/
def validateEnumTuples (e : Enum) : Outcome TupleSize := tryForEach (fun v => validateFieldTuples v.fields) e.variants

/-! ### validate/mod.rs -/

/-- `Error`, mod.rs:24-42. -/
inductive ValidateError where
  | duplicateId (e : DuplicateId)
  | duplicateName (e : DuplicateName)
  | invalidGeneric (e : InvalidGeneric)
  | tupleSize (e : TupleSize)
deriving DecidableEq, Repr

/-- Struct arm of `definition`, mod.rs:81-86. -/
def validateStruct (checked : Bool) (s : Struct) : Outcome ValidateError :=
  ((validateFieldIds checked s.fields).mapErr .duplicateId).andThen <|
  ((validateFieldNames s.fields).mapErr .duplicateName).andThen <|
  ((validateStructGenerics s).mapErr .invalidGeneric).andThen <|
  (validateFieldTuples s.fields).mapErr .tupleSize

/-- Enum arm of `definition`, mod.rs:87-92. -/
def validateEnum (checked : Bool) (e : Enum) : Outcome ValidateError :=
  ((validateEnumIds checked e).mapErr .duplicateId).andThen <|
  ((validateEnumNames e).mapErr .duplicateName).andThen <|
  ((validateEnumGenerics e).mapErr .invalidGeneric).andThen <|
  (validateEnumTuples e).mapErr .tupleSize

mutual
/-- `definition`, mod.rs:75-103. -/
def validateDefinition (checked : Bool) : Definition → Outcome ValidateError
  | .module _ _ ds =>
    ((validateNamesInModule ds).mapErr .duplicateName).andThen (validateDefinitions checked ds)
  | .struct s => validateStruct checked s
  | .enum e => validateEnum checked e
  | .typeAlias a => (tupleSizes a.target).mapErr .tupleSize
  | .const c => (tupleSizes c.ty).mapErr .tupleSize
  | .import _ => .ok
/-- `definitions.iter().try_for_each(definition)`. -/
def validateDefinitions (checked : Bool) : List Definition → Outcome ValidateError
  | [] => .ok
  | d :: ds => (validateDefinition checked d).andThen (validateDefinitions checked ds)
end

/-- `schema` (exported as `validate_schema`), validate/mod.rs:70-73. -/
def validateSchema (checked : Bool) (s : Ast.Schema) : Outcome ValidateError :=
  ((validateNamesInModule s.definitions).mapErr .duplicateName).andThen (validateDefinitions checked s.definitions)

end Mabo.Compiler
