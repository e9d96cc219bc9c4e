import Verif.Compiler.Simplify
/-!
Model of when the Rust generator (`crates/mabo-build/src/{definition,encode,decode,size}.rs`) finishes: each function
says that the corresponding Rust function reaches none of its `todo!`/`panic!` arms. (What the generated code does is
modelled in `Verif/Codegen.lean`.)

Simplification: `Ident::new`, which panics on a string that is not an identifier, is taken to succeed; the parser only
produces identifiers.
-/
namespace Mabo.Generator
open Mabo.Simplify
open Mabo.Schema (Prim FieldKind)

/-- Leaf types with an arm under `Type::NonZero`, definition.rs:297-325, encode.rs:270-318, decode.rs:239-274,
size.rs:224-242. -/
def nzPrim : Prim → Bool
  | .u8 | .u16 | .u32 | .u64 | .u128 | .i8 | .i16 | .i32 | .i64 | .i128
  | .string | .stringRef | .bytes | .bytesRef => true
  | .bool | .f32 | .f64 | .boxString | .boxBytes => false

/-- Types with an arm under `Type::NonZero` (same lines). -/
def nzArm : Ty → Bool
  | .prim p => nzPrim p
  | .vec _ | .hashMap _ _ | .hashSet _ => true
  | _ => false

/-- `2..=12`, encode.rs:321, decode.rs:279, size.rs:245. -/
def tupleArm (n : Nat) : Bool := 2 ≤ n && n ≤ 12

mutual
/-- definition.rs:259-355 (`compile_data_type`). -/
def defOk : Ty → Bool
  | .prim _ => true
  | .vec t | .hashSet t | .option t | .array t _ => defOk t
  | .hashMap k v => defOk k && defOk v
  | .nonZero t => nzArm t && defOk t
  | .tuple ts => defOks ts
  | .external _ _ generics => defOks generics
/-- On all elements. -/
def defOks : List Ty → Bool
  | [] => true
  | t :: ts => defOk t && defOks ts
end

mutual
/-- size.rs:185-263 (`compile_data_type`). -/
def sizeOk : Ty → Bool
  | .prim _ => true
  | .vec t | .hashSet t | .option t | .array t _ => sizeOk t
  | .hashMap k v => sizeOk k && sizeOk v
  | .nonZero t => nzArm t && sizeOk t
  | .tuple ts => tupleArm ts.length && sizeOks ts
  | .external _ _ _ => true
/-- On all elements. -/
def sizeOks : List Ty → Bool
  | [] => true
  | t :: ts => sizeOk t && sizeOks ts
end

mutual
/-- encode.rs:156-356 (`compile_data_type`). -/
def encOk (root : Bool) : Ty → Bool
  | .prim _ => true
  | .vec t | .hashSet t | .array t _ => sizeOk t && encOk false t
  | .option t => encOk false t
  | .hashMap k v => sizeOk k && sizeOk v && encOk false k && encOk false v
  | .nonZero t => nzArm t && encOk false t
  | .tuple ts => tupleArm ts.length && encOks ts && (!root || sizeOks ts)
  | .external _ _ _ => true
/-- On all elements. -/
def encOks : List Ty → Bool
  | [] => true
  | t :: ts => encOk false t && encOks ts
end

mutual
/-- decode.rs:202-319 (`compile_data_type`); the root flag only adds code. -/
def decOk : Ty → Bool
  | .prim _ => true
  | .vec t | .hashSet t | .option t | .array t _ => decOk t
  | .hashMap k v => decOk k && decOk v
  | .nonZero t => nzArm t && decOk t
  | .tuple ts => tupleArm ts.length && decOks ts
  | .external _ _ generics => defOks generics
/-- On all elements. -/
def decOks : List Ty → Bool
  | [] => true
  | t :: ts => decOk t && decOks ts
end

/-- `if let Type::Option(ty) = &ty { ty } else { ty }`, encode.rs:127, decode.rs:148, size.rs:100,152. -/
def unwrapOption : Ty → Ty
  | .option t => t
  | t => t

/-- Everything generated for one field list: definition.rs:230-257, encode.rs:118-143, decode.rs:120-155,
size.rs:91-120,143-168. The encoder and `size` do not look at the fields of a unit, which has none. -/
def fieldsOk (fs : Fields) : Bool :=
  fs.fields.all fun f =>
    defOk f.ty && encOk true (unwrapOption f.ty) && decOk (unwrapOption f.ty) && sizeOk (unwrapOption f.ty)

/-- `compile_const_data_type`, definition.rs:357-376. -/
def constOk : Ty → Bool
  | .prim .boxString | .prim .boxBytes => false
  | .prim _ => true
  | _ => false

mutual
/-- `compile_definition`, definition.rs:24-57. -/
def definitionOk : Definition → Bool
  | .module _ _ ds => definitionsOk ds
  | .struct s => fieldsOk s.fields
  | .enum e => e.variants.all fun v => fieldsOk v.fields
  | .typeAlias a => defOk a.target
  | .const c => constOk c.ty
  | .import _ _ => true
/-- On all definitions. -/
def definitionsOk : List Definition → Bool
  | [] => true
  | d :: ds => definitionOk d && definitionsOk ds
end

/-- `compile_schema`, definition.rs:13-22, finishes without a panic. -/
def compileOk (s : Schema) : Bool := definitionsOk s.definitions

end Mabo.Generator
