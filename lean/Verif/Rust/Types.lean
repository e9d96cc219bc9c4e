import Verif.Rust.Emit
import Verif.Build.Crate
/-!
Rust's types as far as generated code uses them: what a written type means in its module, which Rust type a type of the schema
is, and which types have the traits of the runtime crate (`crates/mabo/src/buf/{encode,decode,size}.rs`) and of the standard
library.
-/
namespace Mabo.Rust
open Mabo.Schema (Prim Ty)

/-- A Rust type. `builtin` is one of the standard library or the runtime crate, by its last name; `named` one of the
generated crate, by its absolute path. -/
inductive Rt where
  | builtin (name : String) (args : List Rt)
  | tuple (ts : List Rt)
  | array (t : Rt) (n : Nat)
  | slice (t : Rt)
  | named (abs : List String) (args : List Rt)
  | param (i : Nat)

mutual
/-- Equality. -/
def Rt.beq : Rt → Rt → Bool
  | .builtin n a, .builtin m b => n == m && Rt.beqs a b
  | .tuple a, .tuple b => Rt.beqs a b
  | .array a n, .array b m => n == m && a.beq b
  | .slice a, .slice b => a.beq b
  | .named n a, .named m b => n == m && Rt.beqs a b
  | .param i, .param j => i == j
  | _, _ => false
/-- Equality of lists. -/
def Rt.beqs : List Rt → List Rt → Bool
  | [], [] => true
  | a :: as, b :: bs => a.beq b && Rt.beqs as bs
  | _, _ => false
end

mutual
theorem Rt.beq_iff : ∀ a b : Rt, a.beq b = true ↔ a = b
  | .builtin n a, b => by cases b <;> simp [Rt.beq, Rt.beqs_iff a]
  | .tuple a, b => by cases b <;> simp [Rt.beq, Rt.beqs_iff a]
  | .array a n, b => by cases b <;> simp [Rt.beq, Rt.beq_iff a, and_comm]
  | .slice a, b => by cases b <;> simp [Rt.beq, Rt.beq_iff a]
  | .named n a, b => by cases b <;> simp [Rt.beq, Rt.beqs_iff a]
  | .param i, b => by cases b <;> simp [Rt.beq]
theorem Rt.beqs_iff : ∀ a b : List Rt, Rt.beqs a b = true ↔ a = b
  | [], b => by cases b <;> simp [Rt.beqs]
  | a :: as, b => by cases b <;> simp [Rt.beqs, Rt.beq_iff a, Rt.beqs_iff as]
end

instance : DecidableEq Rt := fun a b =>
  if h : a.beq b = true then isTrue ((Rt.beq_iff a b).1 h) else isFalse fun hh => h ((Rt.beq_iff a b).2 hh)

/-- A builtin type without arguments. -/
def base (n : String) : Rt := .builtin n []

/-- What the names in a module mean. -/
structure Scope where
  /-- The type parameters of the definition around. -/
  generics : List String
  /-- The type of the crate that a path means. -/
  look : List String → String → Option (List String)
  /-- The number of type parameters of a type of the crate. -/
  arity : List String → Option Nat
  /-- Single names that mean something else than a type of the crate, for example modules. -/
  other : String → Bool
  /-- Single names of functions, constructors and constants in the crate. -/
  values : String → Bool

/-- Single names that have a meaning without any definition: primitive types and Rust's prelude. -/
def preludeTy : String → List Rt → Option Rt
  | "bool", [] => some (base "bool")
  | "u8", [] => some (base "u8")
  | "u16", [] => some (base "u16")
  | "u32", [] => some (base "u32")
  | "u64", [] => some (base "u64")
  | "u128", [] => some (base "u128")
  | "i8", [] => some (base "i8")
  | "i16", [] => some (base "i16")
  | "i32", [] => some (base "i32")
  | "i64", [] => some (base "i64")
  | "i128", [] => some (base "i128")
  | "f32", [] => some (base "f32")
  | "f64", [] => some (base "f64")
  | "str", [] => some (base "str")
  | "String", [] => some (base "String")
  | "Vec", [t] => some (.builtin "Vec" [t])
  | "Box", [t] => some (.builtin "Box" [t])
  | "Option", [t] => some (.builtin "Option" [t])
  | _, _ => none

/-- Paths that start with a crate. The aliases are those of `crates/mabo/src/lib.rs:188-197`. -/
def crateTy : List String → List Rt → Option Rt
  | ["std", "num", n], [] => some (base n)
  | ["std", "collections", "HashMap"], [k, v] => some (.builtin "HashMap" [k, v])
  | ["std", "collections", "HashSet"], [t] => some (.builtin "HashSet" [t])
  | ["mabo", "buf", "Bytes"], [] => some (base "Bytes")
  | ["mabo", "NonZero"], [t] => some (.builtin "NonZero" [t])
  | ["mabo", "NonZeroString"], [] => some (.builtin "NonZero" [base "String"])
  | ["mabo", "NonZeroBytes"], [] => some (.builtin "NonZero" [.builtin "Vec" [base "u8"]])
  | ["mabo", "NonZeroVec"], [t] => some (.builtin "NonZero" [.builtin "Vec" [t]])
  | ["mabo", "NonZeroHashMap"], [k, v] => some (.builtin "NonZero" [.builtin "HashMap" [k, v]])
  | ["mabo", "NonZeroHashSet"], [t] => some (.builtin "NonZero" [.builtin "HashSet" [t]])
  | _, _ => none

/-- A type of the crate with arguments. -/
def crateNamed (sc : Scope) (abs : List String) (args : List Rt) : Option Rt :=
  if sc.arity abs = some args.length then some (.named abs args) else none

/-- A path without a crate: type parameters hide everything, the items and imports of the module hide the prelude. -/
def localTy (sc : Scope) (path : List String) (name : String) (args : List Rt) : Option Rt :=
  if path = [] then
    if name ∈ sc.generics then
      if args.isEmpty then some (.param (sc.generics.idxOf name)) else none
    else
      match sc.look [] name with
      | some abs => crateNamed sc abs args
      | none => if sc.other name then none else preludeTy name args
  else
    match sc.look path name with
    | some abs => crateNamed sc abs args
    | none => none

mutual
/-- The meaning of a written type, if it has one. -/
def readTy (sc : Scope) : TyE → Option Rt
  | .path true segs args => do crateTy segs (← readTys sc args)
  | .path false segs args => do
    match segs.getLast? with
    | some name => localTy sc segs.dropLast name (← readTys sc args)
    | none => none
  | .tuple ts => do pure (.tuple (← readTys sc ts))
  | .array t n => do pure (.array (← readTy sc t) n)
  | .slice t => do pure (.slice (← readTy sc t))
  | .ref _ => none
/-- Of all of them. -/
def readTys (sc : Scope) : List TyE → Option (List Rt)
  | [] => some []
  | t :: ts => do pure ((← readTy sc t) :: (← readTys sc ts))
end

/-- The Rust type of a leaf type. -/
def rustPrim (o : BytesType) : Prim → Rt
  | .bool => base "bool"
  | .u8 => base "u8"
  | .u16 => base "u16"
  | .u32 => base "u32"
  | .u64 => base "u64"
  | .u128 => base "u128"
  | .i8 => base "i8"
  | .i16 => base "i16"
  | .i32 => base "i32"
  | .i64 => base "i64"
  | .i128 => base "i128"
  | .f32 => base "f32"
  | .f64 => base "f64"
  | .string | .stringRef => base "String"
  | .bytes | .bytesRef =>
    match o with
    | .vecU8 => .builtin "Vec" [base "u8"]
    | .bytes => base "Bytes"
  | .boxString => .builtin "Box" [base "str"]
  | .boxBytes => .builtin "Box" [.slice (base "u8")]

/-- The non-zero variants of the integer types. -/
def rustNonZero : Prim → Option String
  | .u8 => some "NonZeroU8"
  | .u16 => some "NonZeroU16"
  | .u32 => some "NonZeroU32"
  | .u64 => some "NonZeroU64"
  | .u128 => some "NonZeroU128"
  | .i8 => some "NonZeroI8"
  | .i16 => some "NonZeroI16"
  | .i32 => some "NonZeroI32"
  | .i64 => some "NonZeroI64"
  | .i128 => some "NonZeroI128"
  | _ => none

mutual
/-- The Rust type that the values of a type of the schema have. -/
def rustOf (o : BytesType) : Ty → Rt
  | .prim p => rustPrim o p
  | .vec t => .builtin "Vec" [rustOf o t]
  | .hashMap k v => .builtin "HashMap" [rustOf o k, rustOf o v]
  | .hashSet t => .builtin "HashSet" [rustOf o t]
  | .option t => .builtin "Option" [rustOf o t]
  | .nonZero (.prim p) =>
    match rustNonZero p with
    | some n => base n
    | none => .builtin "NonZero" [rustPrim o p]
  | .nonZero t => .builtin "NonZero" [rustOf o t]
  | .tuple ts => .tuple (rustOfs o ts)
  | .array t n => .array (rustOf o t) n
  | .ext abs args => .named abs (rustOfs o args)
  | .param i => .param i
  | .inst t => rustOf o t
/-- Of all of them. -/
def rustOfs (o : BytesType) : List Ty → List Rt
  | [] => []
  | t :: ts => rustOf o t :: rustOfs o ts
end

/-! ### Traits -/

/-- Leaf types with the traits `Encode`, `Decode` and `Size`: encode.rs:202-244, decode.rs:524-564, size.rs:154-194.
`bytes::Bytes` has none of them. -/
def primTraits (o : BytesType) : Prim → Bool
  | .bytes | .bytesRef => o = .vecU8
  | _ => true

mutual
/-- Types with the traits `Encode` and `Size` (always both): encode.rs:202-322, size.rs:154-265, and the generated
implementations, whose type arguments must have them. There is none for tuples and Rust's own non-zero integers. -/
def hasEnc (o : BytesType) (arity : List String → Option Nat) : Ty → Bool
  | .prim p => primTraits o p
  | .vec t | .hashSet t | .option t | .array t _ => hasEnc o arity t
  | .hashMap k v => hasEnc o arity k && hasEnc o arity v
  | .nonZero (.prim p) => (rustNonZero p).isNone && primTraits o p
  | .nonZero t => hasEnc o arity t
  | .tuple _ => false
  | .ext abs args => arity abs = some args.length && hasEncs o arity args
  | .param _ => true
  | .inst t => hasEnc o arity t
/-- All of them. -/
def hasEncs (o : BytesType) (arity : List String → Option Nat) : List Ty → Bool
  | [] => true
  | t :: ts => hasEnc o arity t && hasEncs o arity ts
end

mutual
/-- Types with `Eq` and `Hash`. Generated types derive only `PartialEq`, like the type `NonZero` of the runtime crate
(lib.rs:141), and type parameters have no such bound. -/
def hashable : Ty → Bool
  | .prim p =>
    match p with
    | .f32 | .f64 => false
    | _ => true
  | .vec t | .option t | .array t _ => hashable t
  | .hashMap _ _ | .hashSet _ => false
  | .nonZero (.prim p) => (rustNonZero p).isSome
  | .nonZero _ => false
  | .tuple ts => hashables ts
  | .ext _ _ | .param _ => false
  | .inst t => hashable t
/-- All of them. -/
def hashables : List Ty → Bool
  | [] => true
  | t :: ts => hashable t && hashables ts
end

mutual
/-- Types with the trait `Decode`: decode.rs:524-615 and the generated implementations. There is none for tuples and
non-zero types. (`Debug`, which arrays and type arguments need as well, is there for all types.) -/
def hasDec (o : BytesType) (arity : List String → Option Nat) : Ty → Bool
  | .prim p => primTraits o p
  | .vec t | .option t | .array t _ => hasDec o arity t
  | .hashSet t => hashable t && hasDec o arity t
  | .hashMap k v => hashable k && hasDec o arity k && hasDec o arity v
  | .nonZero _ | .tuple _ => false
  | .ext abs args => arity abs = some args.length && hasDecs o arity args
  | .param _ => true
  | .inst t => hasDec o arity t
/-- All of them. -/
def hasDecs (o : BytesType) (arity : List String → Option Nat) : List Ty → Bool
  | [] => true
  | t :: ts => hasDec o arity t && hasDecs o arity ts
end

end Mabo.Rust
