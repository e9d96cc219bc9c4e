import Verif.Rust.Types
/-!
Types of the schema for which the generated code compiles (`crates/mabo-build/src/{encode,size,decode}.rs`); see
`Rust/SizeSem.lean`, `Rust/EncodeSem.lean` and `Rust/DecodeSem.lean` for the proofs.
-/
namespace Mabo.Rust
open Mabo.Schema (Prim Ty)

/-- The argument types of `non_zero` that have arms in the generator. -/
def nzPrim : Prim → Bool
  | .bool | .f32 | .f64 | .boxString | .boxBytes => false
  | _ => true

mutual
/-- Can `size` and `encode` be generated for a value of the type that sits inside of `k` tuples? Leaf types are passed as
`*&&x.0.1`, which is a reference again if there are two tuples; `option` and non-zero integers as `&x.0.as_ref()` and
`&x.0.get()`, which is a reference already with one; the sizes of named types are `&&x.0.1.size()`, which cannot be added.
`box<bytes>` is passed as `bytes::Bytes` if that type is selected for `bytes`. -/
def refOk (o : BytesType) (arity : List String → Option Nat) (k : Nat) : Ty → Bool
  | .prim p => if byValue p then k ≤ 1 else o = .vecU8 || p ≠ .boxBytes
  | .vec t | .hashSet t | .array t _ => refOk o arity 0 t
  | .hashMap a b => refOk o arity 0 a && refOk o arity 0 b
  | .option t => k = 0 && refOk o arity 0 t
  | .nonZero (.prim p) => nzPrim p && (!isInt p || k = 0)
  | .nonZero (.vec t) | .nonZero (.hashSet t) => refOk o arity 0 t
  | .nonZero (.hashMap a b) => refOk o arity 0 a && refOk o arity 0 b
  | .nonZero _ => false
  | .tuple ts => tupleArm ts.length && refOks o arity (k + 1) ts
  | .ext abs args => k ≤ 1 && hasEnc o arity (.ext abs args)
  | .param _ => k ≤ 1
  | .inst _ => false
/-- All of them. -/
def refOks (o : BytesType) (arity : List String → Option Nat) (k : Nat) : List Ty → Bool
  | [] => true
  | t :: ts => refOk o arity k t && refOks o arity k ts
end

mutual
/-- Can `decode` be generated? Keys of maps and elements of sets must have `Eq` and `Hash`; the type arguments of named types
must have the trait `Decode`. -/
def decOk (o : BytesType) (arity : List String → Option Nat) : Ty → Bool
  | .prim _ => true
  | .vec t | .option t | .array t _ => decOk o arity t
  | .hashSet t => hashable t && decOk o arity t
  | .hashMap k v => hashable k && decOk o arity k && decOk o arity v
  | .nonZero (.prim p) => nzPrim p
  | .nonZero (.vec t) => decOk o arity t
  | .nonZero (.hashSet t) => hashable t && decOk o arity t
  | .nonZero (.hashMap k v) => hashable k && decOk o arity k && decOk o arity v
  | .nonZero _ => false
  | .tuple ts => tupleArm ts.length && decOks o arity ts
  | .ext abs args => hasDec o arity (.ext abs args)
  | .param _ => true
  | .inst _ => false
/-- All of them. -/
def decOks (o : BytesType) (arity : List String → Option Nat) : List Ty → Bool
  | [] => true
  | t :: ts => decOk o arity t && decOks o arity ts
end

end Mabo.Rust
