import Verif.Spec.Wire
/-!
When the generated `size()` is exact. `exactSize` lists the two places where the code goes wrong: the
length prefix of a collection is accounted as the varint size of its *element count*, although the
*byte count* is written; and a tuple in field position is written with a length prefix that `size()`
does not count.
-/
namespace Mabo.Spec
open Mabo.Buf Mabo.Schema Mabo.Codegen

/-- A tuple type (not behind a generic parameter). -/
def isTuple : Ty → Bool
  | .tuple _ => true
  | _ => false

/-- The varints of the two numbers have the same length. -/
def samePrefix (a b : Nat) : Bool := decide (sizeLen a = sizeLen b)

mutual
/-- Every collection inside the value has an element count and a byte count with equally long varints, and
no tuple is used as a field. -/
def exactSize (env : Env) (t : Ty) (v : Val) : Bool :=
  match t.strip, v with
  | .vec t, .list xs => samePrefix xs.length (encList env t xs).length && exactList env t xs
  | .hashMap k w, .list xs => samePrefix xs.length (encEntries env k w xs).length && exactEntries env k w xs
  | .hashSet t, .list xs => samePrefix xs.length (encList env t xs).length && exactList env t xs
  | .array t _, .list xs => samePrefix xs.length (encList env t xs).length && exactList env t xs
  | .option t, .some v => exactSize env t v
  | .tuple ts, .list xs => exactTuple env ts xs
  | .ext name args, .struct vs =>
    match env name with
    | some (.struct fs) => exactFields env (fs.subst args).fields vs
    | _ => true
  | .ext name args, .enum i vs =>
    match env name with
    | some (.enum vars) =>
      match vars[i]? with
      | some var => exactFields env (var.fields.subst args).fields vs
      | none => true
    | _ => true
  | _, _ => true
/-- All elements. -/
def exactList (env : Env) (t : Ty) : List Val → Bool
  | [] => true
  | v :: vs => exactSize env t v && exactList env t vs
/-- All entries. -/
def exactEntries (env : Env) (k w : Ty) : List Val → Bool
  | [] => true
  | .pair a b :: es => exactSize env k a && exactSize env w b && exactEntries env k w es
  | _ :: es => exactEntries env k w es
/-- All tuple elements. -/
def exactTuple (env : Env) : List Ty → List Val → Bool
  | t :: ts, v :: vs => exactSize env t v && exactTuple env ts vs
  | _, _ => true
/-- All fields; tuples are never exact here. -/
def exactFields (env : Env) : List Field → List Val → Bool
  | f :: fs, v :: vs =>
    (match f.ty, v with
     | .option t, .some v => !isTuple t && exactSize env t v
     | .option _, _ => true
     | t, v => !isTuple t && exactSize env t v) && exactFields env fs vs
  | _, _ => true
end

mutual
/-- No collection inside the value has an element that occupies zero bytes (e.g. unit structs). -/
def noEmpty (env : Env) (t : Ty) (v : Val) : Bool :=
  match t.strip, v with
  | .vec t, .list xs => noEmptyList env t xs
  | .hashMap k w, .list xs => noEmptyEntries env k w xs
  | .hashSet t, .list xs => noEmptyList env t xs
  | .array t _, .list xs => noEmptyList env t xs
  | .option t, .some v => noEmpty env t v
  | .tuple ts, .list xs => noEmptyTuple env ts xs
  | .ext name args, .struct vs =>
    match env name with
    | some (.struct fs) => noEmptyFields env (fs.subst args).fields vs
    | _ => true
  | .ext name args, .enum i vs =>
    match env name with
    | some (.enum vars) =>
      match vars[i]? with
      | some var => noEmptyFields env (var.fields.subst args).fields vs
      | none => true
    | _ => true
  | _, _ => true
/-- All elements. -/
def noEmptyList (env : Env) (t : Ty) : List Val → Bool
  | [] => true
  | v :: vs => !(enc env false t v).isEmpty && noEmpty env t v && noEmptyList env t vs
/-- All entries. -/
def noEmptyEntries (env : Env) (k w : Ty) : List Val → Bool
  | [] => true
  | .pair a b :: es =>
    !(enc env false k a ++ enc env false w b).isEmpty && noEmpty env k a && noEmpty env w b &&
      noEmptyEntries env k w es
  | _ :: es => noEmptyEntries env k w es
/-- All tuple elements. -/
def noEmptyTuple (env : Env) : List Ty → List Val → Bool
  | t :: ts, v :: vs => noEmpty env t v && noEmptyTuple env ts vs
  | _, _ => true
/-- All fields. -/
def noEmptyFields (env : Env) : List Field → List Val → Bool
  | f :: fs, v :: vs =>
    (match f.ty, v with
     | .option t, .some v => noEmpty env t v
     | .option _, _ => true
     | t, v => noEmpty env t v) && noEmptyFields env fs vs
  | _, _ => true
end

end Mabo.Spec
