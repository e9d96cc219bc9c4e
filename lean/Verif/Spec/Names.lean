import Verif.Spec.View
/-! Which named types a type mentions. -/
namespace Mabo.Spec
open Mabo.Buf Mabo.Schema Mabo.Codegen

mutual
/-- All named types in the type come from the set `S`. -/
def namesIn (S : List String → Bool) : Ty → Bool
  | .prim _ | .param _ => true
  | .vec t | .hashSet t | .option t | .nonZero t | .array t _ | .inst t => namesIn S t
  | .hashMap k v => namesIn S k && namesIn S v
  | .tuple ts => namesInAll S ts
  | .ext name args => S name && namesInAll S args
/-- All of them. -/
def namesInAll (S : List String → Bool) : List Ty → Bool
  | [] => true
  | t :: ts => namesIn S t && namesInAll S ts
end

/-- The definitions named by `S` are the same in both schemas and only mention names from `S`. -/
def Unchanged (W R : Env) (S : List String → Bool) : Prop :=
  ∀ name d, S name = true → W name = some d →
    R name = some d ∧ ∀ fs ∈ Def.fieldLists d, ∀ f ∈ fs.fields, namesIn S f.ty = true

/-- What a field holding `v` carries on the wire: nothing for an absent option. -/
def carried (t : Ty) (v : Val) : Option Val :=
  match t, v with
  | .option _, .some x => some x
  | .option _, _ => none
  | _, v => some v

/-- The values of the fields whose number a reader knows. -/
def keptVals (keep : BitVec 32 → Bool) : List Field → List Val → List Val
  | f :: fs, v :: vs => if keep f.id then v :: keptVals keep fs vs else keptVals keep fs vs
  | _, _ => []

end Mabo.Spec
