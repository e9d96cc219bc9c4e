import Verif.Buf
/-!
The simplified schema the code generator works on (`crates/mabo-compiler/src/simplify.rs`) and a
universe of runtime values for it.

Simplifications: type names are already resolved to absolute paths (name resolution is modelled in
`Verif/Compiler`); comments and source links are dropped; generic parameters are de Bruijn style
indices into the parameter list of their definition.
-/
namespace Mabo.Schema
open Mabo.Buf

/-- Built-in leaf types of `simplify::Type`, simplify.rs:233-295. -/
inductive Prim where
  | bool | u8 | u16 | u32 | u64 | u128 | i8 | i16 | i32 | i64 | i128 | f32 | f64
  | string | stringRef | bytes | bytesRef | boxString | boxBytes
deriving DecidableEq, Repr

/-- `simplify::Type`, simplify.rs:233-295. `param i` is an `External` naming the `i`-th generic
parameter of the enclosing definition; `inst t` is such a reference after the generic definition has
been used with the type argument `t` (Rust then dispatches through the `Encode`/`Decode`/`Size` traits
of `t`). -/
inductive Ty where
  | prim (p : Prim)
  | vec (t : Ty)
  | hashMap (k v : Ty)
  | hashSet (t : Ty)
  | option (t : Ty)
  | nonZero (t : Ty)
  | tuple (ts : List Ty)
  | array (t : Ty) (n : Nat)
  | ext (name : List String) (args : List Ty)
  | param (i : Nat)
  | inst (t : Ty)
deriving Repr

/-- `FieldKind`, simplify.rs:150-159. -/
inductive FieldKind where
  | named | unnamed | unit
deriving DecidableEq, Repr

/-- `Field`, simplify.rs:126-139. -/
structure Field where
  name : String
  ty : Ty
  id : BitVec 32
deriving Repr

/-- `Fields`, simplify.rs:114-123. -/
structure Fields where
  kind : FieldKind
  fields : List Field
deriving Repr

/-- `Variant`, simplify.rs:98-111. -/
structure Variant where
  name : String
  fields : Fields
  id : BitVec 32
deriving Repr

/-- `Struct` / `Enum`, simplify.rs:68-95. -/
inductive Def where
  | struct (fields : Fields)
  | enum (variants : List Variant)
deriving Repr

/-- All struct and enum definitions by absolute path. -/
abbrev Env := List String → Option Def

/-- Runtime values of generated Rust types. Integers and floats are bit patterns; strings, byte
vectors, vectors / sets / arrays / tuples (as lists), hash maps (lists of `pair`s in iteration order),
options, structs (fields in declaration order) and enums (variant index and fields). Non-zero wrappers
are transparent. -/
inductive Val where
  | bool (b : Bool)
  | num (n : Nat)
  | str (s : String)
  | bytes (b : List UInt8)
  | list (xs : List Val)
  | pair (k v : Val)
  | none
  | some (v : Val)
  | struct (fields : List Val)
  | enum (idx : Nat) (fields : List Val)

mutual
/-- Boolean equality of values (needed for hash containers). -/
def Val.beq : Val → Val → Bool
  | .bool a, .bool b => a == b
  | .num a, .num b => a == b
  | .str a, .str b => a == b
  | .bytes a, .bytes b => a == b
  | .list a, .list b => Val.beqList a b
  | .pair a b, .pair c d => Val.beq a c && Val.beq b d
  | .none, .none => true
  | .some a, .some b => Val.beq a b
  | .struct a, .struct b => Val.beqList a b
  | .enum i a, .enum j b => i == j && Val.beqList a b
  | _, _ => false
/-- Boolean equality of lists of values. -/
def Val.beqList : List Val → List Val → Bool
  | [], [] => true
  | a :: as, b :: bs => Val.beq a b && Val.beqList as bs
  | _, _ => false
end

mutual
theorem Val.beq_iff : ∀ a b : Val, Val.beq a b = true ↔ a = b
  | .bool a, b => by cases b <;> simp [Val.beq]
  | .num a, b => by cases b <;> simp [Val.beq]
  | .str a, b => by cases b <;> simp [Val.beq]
  | .bytes a, b => by cases b <;> simp [Val.beq]
  | .list a, b => by cases b <;> simp [Val.beq, Val.beqList_iff a]
  | .pair a b, c => by cases c <;> simp [Val.beq, Val.beq_iff a, Val.beq_iff b]
  | .none, b => by cases b <;> simp [Val.beq]
  | .some a, b => by cases b <;> simp [Val.beq, Val.beq_iff a]
  | .struct a, b => by cases b <;> simp [Val.beq, Val.beqList_iff a]
  | .enum i a, b => by cases b <;> simp [Val.beq, Val.beqList_iff a]
theorem Val.beqList_iff : ∀ a b : List Val, Val.beqList a b = true ↔ a = b
  | [], b => by cases b <;> simp [Val.beqList]
  | a :: as, b => by cases b <;> simp [Val.beqList, Val.beq_iff a, Val.beqList_iff as]
end

instance : DecidableEq Val := fun a b =>
  if h : Val.beq a b = true then isTrue ((Val.beq_iff a b).1 h)
  else isFalse fun hh => h ((Val.beq_iff a b).2 hh)

mutual
/-- Instantiate the generic parameters of a definition (Rust monomorphisation). -/
def Ty.subst (args : List Ty) : Ty → Ty
  | .prim p => .prim p
  | .vec t => .vec (t.subst args)
  | .hashMap k v => .hashMap (k.subst args) (v.subst args)
  | .hashSet t => .hashSet (t.subst args)
  | .option t => .option (t.subst args)
  | .nonZero t => .nonZero (t.subst args)
  | .tuple ts => .tuple (Ty.substList args ts)
  | .array t n => .array (t.subst args) n
  | .ext name as => .ext name (Ty.substList args as)
  | .param i => match args[i]? with | some t => .inst t | none => .param i
  | .inst t => .inst (t.subst args)
/-- `Ty.subst` on lists. -/
def Ty.substList (args : List Ty) : List Ty → List Ty
  | [] => []
  | t :: ts => t.subst args :: Ty.substList args ts
end

/-- Fields of a definition used with type arguments. -/
def Fields.subst (args : List Ty) (fs : Fields) : Fields :=
  { fs with fields := fs.fields.map fun f => { f with ty := f.ty.subst args } }

/-- `FieldKind::Unit` has no fields (simplify.rs builds it that way). -/
def Fields.unitOk (fs : Fields) : Bool := fs.kind != .unit || fs.fields.isEmpty

/-- Peel generic instantiation and the (representation-transparent) non-zero wrapper. -/
def Ty.strip : Ty → Ty
  | .inst t => t.strip
  | .nonZero t => t
  | t => t

/-- Argument types of `non_zero<..>` for which the generator has an arm: encode.rs:270-319,
decode.rs:239-275, size.rs:224-243. -/
def Ty.nzArg : Ty → Bool
  | .prim p => match p with
    | .bool | .f32 | .f64 | .boxString | .boxBytes => false
    | _ => true
  | .vec _ | .hashMap _ _ | .hashSet _ => true
  | _ => false

/-- Is the type (behind instantiation) a `non_zero<..>`? -/
def Ty.isNz : Ty → Bool
  | .inst t => t.isNz
  | .nonZero _ => true
  | _ => false

/-- If the type is a `non_zero<..>`, its argument is supported. -/
def Ty.nzOk : Ty → Bool
  | .inst t => t.nzOk
  | .nonZero t => t.nzArg
  | _ => true

/-- Non-zero / non-empty values. -/
def Val.nonzero : Val → Bool
  | .num n => n != 0
  | .str s => s != ""
  | .bytes b => !b.isEmpty
  | .list xs => !xs.isEmpty
  | _ => false

/-- How a leaf type is represented. -/
inductive Rep where
  | bool | byte | uint (w : Nat) | sint (w : Nat) | f32 | f64 | str | bytes
deriving DecidableEq, Repr

/-- Representation class of each leaf type (the runtime function selected by encode.rs:163-228,
size.rs:187-206 and decode.rs:204-221,276-277). -/
def Prim.rep : Prim → Rep
  | .bool => .bool
  | .u8 => .byte
  | .u16 => .uint 16
  | .u32 => .uint 32
  | .u64 => .uint 64
  | .u128 => .uint 128
  | .i8 => .byte
  | .i16 => .sint 16
  | .i32 => .sint 32
  | .i64 => .sint 64
  | .i128 => .sint 128
  | .f32 => .f32
  | .f64 => .f64
  | .string | .stringRef | .boxString => .str
  | .bytes | .bytesRef | .boxBytes => .bytes

/-- Values of a leaf type. -/
def Rep.has : Rep → Val → Bool
  | .bool, .bool _ => true
  | .byte, .num n => n < 2 ^ 8
  | .uint w, .num n => n < 2 ^ w
  | .sint w, .num n => n < 2 ^ w
  | .f32, .num n => n < 2 ^ 32
  | .f64, .num n => n < 2 ^ 64
  | .str, .str _ => true
  | .bytes, .bytes _ => true
  | _, _ => false

/-- The keys of a hash map value. -/
def Val.keys : List Val → List Val
  | [] => []
  | .pair k _ :: es => k :: Val.keys es
  | _ :: es => Val.keys es

mutual
/-- `v` is a value of (the Rust type generated for) `t`. Types for which the generator emits no code
(`non_zero` of an unsupported type, tuples of other than 2..12 elements, unknown names) have no values. -/
def wt (env : Env) (t : Ty) (v : Val) : Bool :=
  t.nzOk && (!t.isNz || v.nonzero) &&
  match t.strip, v with
  | .prim p, v => p.rep.has v
  | .vec t, .list xs => wtList env t xs
  | .hashMap k w, .list xs => wtEntries env k w xs && decide (Val.keys xs).Nodup
  | .hashSet t, .list xs => wtList env t xs && decide xs.Nodup
  | .option _, .none => true
  | .option t, .some v => wt env t v
  | .tuple ts, .list xs => decide (2 ≤ ts.length ∧ ts.length ≤ 12) && wtTuple env ts xs
  | .array t n, .list xs => decide (xs.length = n) && wtList env t xs
  | .ext name args, .struct vs =>
    match env name with
    | some (.struct fs) => fs.unitOk && wtFields env (fs.subst args).fields vs
    | _ => false
  | .ext name args, .enum i vs =>
    match env name with
    | some (.enum vars) =>
      match vars[i]? with
      | some var => var.fields.unitOk && wtFields env (var.fields.subst args).fields vs
      | none => false
    | _ => false
  | _, _ => false
/-- All elements are values of `t`. -/
def wtList (env : Env) (t : Ty) : List Val → Bool
  | [] => true
  | v :: vs => wt env t v && wtList env t vs
/-- All entries are pairs of values of `k` and `w`. -/
def wtEntries (env : Env) (k w : Ty) : List Val → Bool
  | [] => true
  | .pair a b :: es => wt env k a && wt env w b && wtEntries env k w es
  | _ :: _ => false
/-- Element-wise typing of a tuple. -/
def wtTuple (env : Env) : List Ty → List Val → Bool
  | [], [] => true
  | t :: ts, v :: vs => wt env t v && wtTuple env ts vs
  | _, _ => false
/-- Field-wise typing of a struct or variant. -/
def wtFields (env : Env) : List Field → List Val → Bool
  | [], [] => true
  | f :: fs, v :: vs => wt env f.ty v && wtFields env fs vs
  | _, _ => false
end

end Mabo.Schema
