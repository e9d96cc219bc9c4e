import Verif.Spec.Fragment
/-!
Schemas whose generated decoders are total (never panic, never loop): names resolve with the right number of
type arguments, `non_zero` and tuples are supported ones, there are no fixed-size arrays, and the elements of
collections (and all type arguments) occupy at least one byte.
-/
namespace Mabo.Spec
open Mabo.Buf Mabo.Schema Mabo.Codegen

mutual
/-- A type that may mention `k` generic parameters. `arity` gives the number of parameters of each named
type. -/
def safeTy (env : Env) (arity : List String → Nat) (k : Nat) : Ty → Bool
  | .prim _ => true
  | .vec t | .hashSet t => safeTy env arity k t && neTy env t
  | .hashMap a b => safeTy env arity k a && safeTy env arity k b && (neTy env a || neTy env b)
  | .option t | .inst t => safeTy env arity k t
  | .nonZero (.prim p) => (Ty.prim p).nzArg
  | .nonZero (.vec t) | .nonZero (.hashSet t) => safeTy env arity k t && neTy env t
  | .nonZero (.hashMap a b) => safeTy env arity k a && safeTy env arity k b && (neTy env a || neTy env b)
  | .nonZero _ => false
  | .tuple ts => decide (2 ≤ ts.length ∧ ts.length ≤ 12) && safeTys env arity k ts
  | .array _ _ => false
  | .ext name args =>
    (env name).isSome && decide (args.length = arity name) && safeTys env arity k args && neAll env args
  | .param i => decide (i < k)
/-- All of them. -/
def safeTys (env : Env) (arity : List String → Nat) (k : Nat) : List Ty → Bool
  | [] => true
  | t :: ts => safeTy env arity k t && safeTys env arity k ts
/-- All of them occupy at least one byte. -/
def neAll (env : Env) : List Ty → Bool
  | [] => true
  | t :: ts => neTy env t && neAll env ts
end

/-- All field types of all definitions are safe. -/
def SafeEnv (env : Env) (arity : List String → Nat) : Prop :=
  ∀ name d, env name = some d →
    ∀ fs ∈ Def.fieldLists d, ∀ f ∈ fs.fields, safeTy env arity (arity name) f.ty = true

end Mabo.Spec
