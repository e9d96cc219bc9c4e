import Verif.Spec.Size
import Verif.Spec.Faithful
/-!
Schema-level (syntactic) conditions under which the value-level conditions `faithful` and `exactSize`
hold for every value: collections whose elements contain neither collections nor tuple fields.
-/
namespace Mabo.Spec
open Mabo.Buf Mabo.Schema Mabo.Codegen

mutual
/-- No collection in the type; named types only from the set `S`. -/
def plainTy (S : List String → Bool) : Ty → Bool
  | .prim _ => true
  | .nonZero t => (match t with | .prim _ => true | _ => false)
  | .option t => plainTy S t
  | .tuple ts => plainTys S ts
  | .ext name args => S name && plainTys S args
  | .param _ => true
  | .inst t => plainTy S t
  | .vec _ | .hashMap _ _ | .hashSet _ | .array _ _ => false
/-- All of them. -/
def plainTys (S : List String → Bool) : List Ty → Bool
  | [] => true
  | t :: ts => plainTy S t && plainTys S ts
end

mutual
/-- Values of the type occupy at least one byte. -/
def neTy (env : Env) : Ty → Bool
  | .prim _ | .nonZero _ | .option _ | .vec _ | .hashMap _ _ | .hashSet _ | .array _ _ | .param _ => true
  | .tuple ts => neAny env ts
  | .ext name _ =>
    match env name with
    | some (.struct fs) => fs.kind != .unit
    | _ => true
  | .inst t => neTy env t
/-- One of them occupies at least one byte. -/
def neAny (env : Env) : List Ty → Bool
  | [] => false
  | t :: ts => neTy env t || neAny env ts
end

/-- The field lists of a definition. -/
def Def.fieldLists : Def → List Fields
  | .struct fs => [fs]
  | .enum vars => vars.map (·.fields)

/-- Every field of the named types in `S` is plain, and none is a tuple. -/
def PlainEnv (env : Env) (S : List String → Bool) : Prop :=
  ∀ name d, S name = true → env name = some d →
    ∀ fs ∈ Def.fieldLists d, ∀ f ∈ fs.fields, plainTy S f.ty = true ∧ isTuple (fieldTy f.ty) = false

/-- Plain and at least one byte long: suitable as element of a collection. -/
def elemTy (env : Env) (S : List String → Bool) (t : Ty) : Bool := plainTy S t && neTy env t

/-- All of them are element types. -/
def elemTys (env : Env) (S : List String → Bool) : List Ty → Bool
  | [] => true
  | t :: ts => elemTy env S t && elemTys env S ts

mutual
/-- Collections are allowed, but only of plain, non-empty elements; named types from `S` (plain) may be used
in elements, named types from `T` anywhere else. -/
def shallowTy (env : Env) (S T : List String → Bool) : Ty → Bool
  | .prim _ => true
  | .nonZero t => match t with
    | .prim _ => true
    | .vec t | .hashSet t => elemTy env S t
    | .hashMap k w => plainTy S k && plainTy S w && (neTy env k || neTy env w)
    | _ => false
  | .vec t | .hashSet t | .array t _ => elemTy env S t
  | .hashMap k w => plainTy S k && plainTy S w && (neTy env k || neTy env w)
  | .option t => shallowTy env S T t
  | .tuple ts => shallowTys env S T ts
  | .ext name args => T name && elemTys env S args
  | .param _ => true
  | .inst t => shallowTy env S T t || plainTy S t
/-- All of them. -/
def shallowTys (env : Env) (S T : List String → Bool) : List Ty → Bool
  | [] => true
  | t :: ts => shallowTy env S T t && shallowTys env S T ts
end

/-- Every field of the named types in `T` is shallow. -/
def ShallowEnv (env : Env) (S T : List String → Bool) : Prop :=
  ∀ name d, T name = true → env name = some d →
    ∀ fs ∈ Def.fieldLists d, ∀ f ∈ fs.fields, shallowTy env S T f.ty = true

end Mabo.Spec
