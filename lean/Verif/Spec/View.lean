import Verif.Spec.Skip
/-!
Schema evolution, specification: what a reader compiled from schema `R` sees of a value written by a program
compiled from schema `W`. Nothing here mentions bytes except the length announced by a skipped collection.
-/
namespace Mabo.Spec
open Mabo.Buf Mabo.Schema Mabo.Codegen

mutual
/-- Boolean equality of types. -/
def tyBeq : Ty → Ty → Bool
  | .prim p, .prim q => p == q
  | .vec a, .vec b => tyBeq a b
  | .hashMap a b, .hashMap c d => tyBeq a c && tyBeq b d
  | .hashSet a, .hashSet b => tyBeq a b
  | .option a, .option b => tyBeq a b
  | .nonZero a, .nonZero b => tyBeq a b
  | .tuple as, .tuple bs => tyBeqs as bs
  | .array a n, .array b m => tyBeq a b && n == m
  | .ext n as, .ext m bs => n == m && tyBeqs as bs
  | .param i, .param j => i == j
  | .inst a, .inst b => tyBeq a b
  | _, _ => false
/-- Boolean equality of lists of types. -/
def tyBeqs : List Ty → List Ty → Bool
  | [], [] => true
  | a :: as, b :: bs => tyBeq a b && tyBeqs as bs
  | _, _ => false
end

mutual
theorem tyBeq_iff : ∀ a b : Ty, tyBeq a b = true ↔ a = b
  | .prim a, b => by cases b <;> simp [tyBeq]
  | .vec a, b => by cases b <;> simp [tyBeq, tyBeq_iff a]
  | .hashMap a c, b => by cases b <;> simp [tyBeq, tyBeq_iff a, tyBeq_iff c]
  | .hashSet a, b => by cases b <;> simp [tyBeq, tyBeq_iff a]
  | .option a, b => by cases b <;> simp [tyBeq, tyBeq_iff a]
  | .nonZero a, b => by cases b <;> simp [tyBeq, tyBeq_iff a]
  | .tuple a, b => by cases b <;> simp [tyBeq, tyBeqs_iff a]
  | .array a n, b => by cases b <;> simp [tyBeq, tyBeq_iff a]
  | .ext a n, b => by cases b <;> simp [tyBeq, tyBeqs_iff n]
  | .param a, b => by cases b <;> simp [tyBeq]
  | .inst a, b => by cases b <;> simp [tyBeq, tyBeq_iff a]
theorem tyBeqs_iff : ∀ a b : List Ty, tyBeqs a b = true ↔ a = b
  | [], b => by cases b <;> simp [tyBeqs]
  | a :: as, b => by cases b <;> simp [tyBeqs, tyBeq_iff a, tyBeqs_iff as]
end

instance : DecidableEq Ty := fun a b =>
  if h : tyBeq a b = true then isTrue ((tyBeq_iff a b).1 h)
  else isFalse fun hh => h ((tyBeq_iff a b).2 hh)

/-- Value of the last entry for an id. -/
def lastOf (l : List (BitVec 32 × Val)) (id : BitVec 32) : Option Val :=
  ((l.filter fun e => e.1 == id).getLast?).map (·.2)

/-- What a reader with fields `gs` sees of one written field (number `id`, type `t`, value `x`; `y` is how
`x` itself is seen): a known field must have the same type up to being optional or required; an unknown one
must be skippable, and is not seen. -/
def seenOne (W : Env) (gs : List Field) (id : BitVec 32) (t : Ty) (x : Val) (y : Option Val) :
    Option (List (BitVec 32 × Val)) :=
  match gs.find? (fun g => g.id == id) with
  | some g => if fieldTy g.ty = t then y.map fun y => [(id, y)] else none
  | none => if skippable t && declaredExact W t x then some [] else none

/-- The fields of a struct or variant as the reader assembles them: absent options are `None`; `none` if a
required field is absent or the two sides disagree on being a unit struct. -/
def viewBody (fs gs : Fields) (seen : Option (List (BitVec 32 × Val))) : Option (List Val) :=
  if fs.kind = .unit ∧ gs.kind = .unit then some []
  else if fs.kind = .unit ∨ gs.kind = .unit then none
  else seen.bind fun l => (assemble (gs.kind == .named) (lastOf l) gs.fields).toOption

mutual
/-- What a reader (schema `R`) sees of the value `v : t` written with schema `W`. -/
def view (W R : Env) (t : Ty) (v : Val) : Option Val :=
  match t.strip, v with
  | .prim _, v => some v
  | .vec t, .list xs => (viewList W R t xs).map .list
  | .hashMap k w, .list xs =>
    (viewEntries W R k w xs).bind fun ys => if (Val.keys ys).Nodup then some (.list ys) else none
  | .hashSet t, .list xs => (viewList W R t xs).bind fun ys => if ys.Nodup then some (.list ys) else none
  | .option _, .none => some .none
  | .option t, .some v => (view W R t v).map .some
  | .tuple ts, .list xs => (viewTuple W R ts xs).map .list
  | .array t _, .list xs => (viewList W R t xs).map .list
  | .ext name args, .struct vs =>
    match W name, R name with
    | some (.struct fs), some (.struct gs) =>
      (viewBody fs (gs.subst args)
        (seenFields W R (gs.subst args).fields (fs.subst args).fields vs)).map .struct
    | _, _ => none
  | .ext name args, .enum i vs =>
    match W name, R name with
    | some (.enum wvars), some (.enum rvars) =>
      match wvars[i]? with
      | some var =>
        match rvars.findIdx? (fun u => u.id == var.id) with
        | some j =>
          match rvars[j]? with
          | some u =>
            (viewBody var.fields (u.fields.subst args)
              (seenFields W R (u.fields.subst args).fields (var.fields.subst args).fields vs)).map (.enum j)
          | none => none
        | none => none
      | none => none
    | _, _ => none
  | _, _ => none
/-- Element-wise. -/
def viewList (W R : Env) (t : Ty) : List Val → Option (List Val)
  | [] => some []
  | v :: vs => (view W R t v).bind fun y => (viewList W R t vs).map (y :: ·)
/-- Entry-wise. -/
def viewEntries (W R : Env) (k w : Ty) : List Val → Option (List Val)
  | [] => some []
  | .pair a b :: es =>
    (view W R k a).bind fun x => (view W R w b).bind fun y => (viewEntries W R k w es).map (.pair x y :: ·)
  | _ :: _ => none
/-- Tuple element-wise. -/
def viewTuple (W R : Env) : List Ty → List Val → Option (List Val)
  | t :: ts, v :: vs => (view W R t v).bind fun y => (viewTuple W R ts vs).map (y :: ·)
  | [], [] => some []
  | _, _ => none
/-- The written fields (`fs`, values `vs`) a reader with fields `gs` sees. -/
def seenFields (W R : Env) (gs : List Field) : List Field → List Val → Option (List (BitVec 32 × Val))
  | f :: fs, v :: vs =>
    (match f.ty, v with
     | .option t, .some x => seenOne W gs f.id t x (view W R t x)
     | .option _, _ => some []
     | t, v => seenOne W gs f.id t v (view W R t v)).bind fun a =>
      (seenFields W R gs fs vs).map (a ++ ·)
  | _, _ => some []
end

end Mabo.Spec
