import Verif.Spec.Fragment
/-!
Which field types can be skipped by a decoder that only knows the encoding marker: those that are really
written the way their marker announces.
-/
namespace Mabo.Spec
open Mabo.Buf Mabo.Schema Mabo.Codegen

/-- Types that are written with a length prefix in every position. -/
def selfPrefixed : Ty → Bool
  | .prim p => match p with
    | .string | .stringRef | .boxString | .bytes | .bytesRef | .boxBytes => true
    | _ => false
  | .vec _ | .hashMap _ _ | .hashSet _ | .array _ _ => true
  | .nonZero t => selfPrefixed t
  | .inst t => selfPrefixed t
  | _ => false

/-- Field types whose marker tells the truth. Not: named types, generic parameters (unless used with a
length-prefixed type) and options inside options. -/
def skippable : Ty → Bool
  | .prim _ | .vec _ | .hashMap _ _ | .hashSet _ | .array _ _ | .tuple _ => true
  | .nonZero t => t.nzArg
  | .inst t => selfPrefixed t
  | .option _ | .ext _ _ | .param _ => false

/-- The length written in front of a collection or tuple is the number of bytes that follow. -/
def declaredExact (env : Env) (t : Ty) (v : Val) : Bool :=
  match t.strip, v with
  | .vec t, .list xs => decide (sizeList env t xs = (encList env t xs).length)
  | .hashMap k w, .list xs => decide (sizeEntries env k w xs = (encEntries env k w xs).length)
  | .hashSet t, .list xs => decide (sizeList env t xs = (encList env t xs).length)
  | .array t _, .list xs => decide (sizeList env t xs = (encList env t xs).length)
  | .tuple ts, .list xs => decide (sizeTuple env ts xs = (encTuple env ts xs).length)
  | _, _ => true

end Mabo.Spec
