import Verif.Spec.Wire
/-!
Side condition of the round-trip property: the collections inside a value announce the number of bytes
they really occupy, and their elements occupy at least one byte. (`Props/Codegen` shows when this holds
and that it does fail for some values accepted by the generator.)
-/
namespace Mabo.Spec
open Mabo.Buf Mabo.Schema Mabo.Codegen

mutual
/-- Every collection inside `v : t` announces its exact byte length and has no empty elements. -/
def faithful (env : Env) (t : Ty) (v : Val) : Bool :=
  match t.strip, v with
  | .vec t, .list xs => decide (sizeList env t xs = (encList env t xs).length) && faithfulElems env t xs
  | .hashMap k w, .list xs =>
    decide (sizeEntries env k w xs = (encEntries env k w xs).length) && faithfulEntries env k w xs
  | .hashSet t, .list xs => decide (sizeList env t xs = (encList env t xs).length) && faithfulElems env t xs
  | .array t _, .list xs => decide (sizeList env t xs = (encList env t xs).length) && faithfulElems env t xs
  | .option t, .some v => faithful env t v
  | .tuple ts, .list xs => faithfulTuple env ts xs
  | .ext name args, .struct vs =>
    match env name with
    | some (.struct fs) => faithfulFields env (fs.subst args).fields vs
    | _ => true
  | .ext name args, .enum i vs =>
    match env name with
    | some (.enum vars) =>
      match vars[i]? with
      | some var => faithfulFields env (var.fields.subst args).fields vs
      | none => true
    | _ => true
  | _, _ => true
/-- Elements of a collection: not empty on the wire, and faithful themselves. -/
def faithfulElems (env : Env) (t : Ty) : List Val → Bool
  | [] => true
  | v :: vs => !(enc env false t v).isEmpty && faithful env t v && faithfulElems env t vs
/-- Entries of a hash map: not empty on the wire, keys and values faithful. -/
def faithfulEntries (env : Env) (k w : Ty) : List Val → Bool
  | [] => true
  | .pair a b :: es =>
    !(enc env false k a ++ enc env false w b).isEmpty && faithful env k a && faithful env w b &&
      faithfulEntries env k w es
  | _ :: es => faithfulEntries env k w es
/-- Elements of a tuple. -/
def faithfulTuple (env : Env) : List Ty → List Val → Bool
  | t :: ts, v :: vs => faithful env t v && faithfulTuple env ts vs
  | _, _ => true
/-- Fields of a struct or variant. -/
def faithfulFields (env : Env) : List Field → List Val → Bool
  | f :: fs, v :: vs =>
    (match f.ty, v with
     | .option t, .some v => faithful env t v
     | .option _, _ => true
     | t, v => faithful env t v) && faithfulFields env fs vs
  | _, _ => true
end

end Mabo.Spec
