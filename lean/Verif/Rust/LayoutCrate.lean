import Verif.Rust.LayoutLemmas
import Verif.Rust.Check
import Verif.Rust.TextSem
import Verif.Build.Meaning
/-! The type definitions of crates whose functions compile. -/
namespace Mabo.Layout
open Mabo.Rust Mabo.Build
open Mabo.Schema (Prim Ty)

theorem rustOfs_eq (o : BytesType) : ∀ ts, rustOfs o ts = ts.map (rustOf o)
  | [] => rfl
  | t :: ts => by rw [rustOfs, rustOfs_eq o ts, List.map_cons]

/-! ### Derived traits -/

theorem key_prim (o : BytesType) (p : Prim) (h : hashable (.prim p) = true) : isKey (rustPrim o p) = true := by
  cases p <;> cases o <;> first | rfl | (simp [hashable] at h)

theorem derive_prim (o : BytesType) (p : Prim) : canDerive (rustPrim o p) = true := by
  cases p <;> cases o <;> rfl

theorem key_nz {o : BytesType} {p : Prim} (h : (rustNonZero p).isSome = true) :
    isKey (rustOf o (.nonZero (.prim p))) = true := by
  cases p <;> first | rfl | (simp [rustNonZero] at h)

theorem derive_nz (o : BytesType) (p : Prim) : canDerive (rustOf o (.nonZero (.prim p))) = true := by
  cases p <;> cases o <;> rfl

theorem key_one {n : String} {t : Rt} (h : isKey t = true) (hn : (!["f32", "f64", "HashMap", "HashSet", "NonZero"].contains n) = true) :
    isKey (.builtin n [t]) = true := by
  rw [isKey, hn, areKeys, areKeys, h]
  rfl

variable {arity : List String → Option Nat}

mutual
theorem key_ok (o : BytesType) : ∀ t : Ty, hashable t = true → (decOk o arity t = true ∨ hasDec o arity t = true) →
    isKey (rustOf o t) = true
  | .prim p, h, _ => key_prim o p h
  | .vec t, h, hd => by
    rw [hashable] at h
    rw [decOk, hasDec] at hd
    exact key_one (key_ok o t h hd) (by decide)
  | .option t, h, hd => by
    rw [hashable] at h
    rw [decOk, hasDec] at hd
    exact key_one (key_ok o t h hd) (by decide)
  | .array t _, h, hd => by
    rw [hashable] at h
    rw [decOk, hasDec] at hd
    rw [rustOf, isKey]
    exact key_ok o t h hd
  | .hashMap _ _, h, _ => by simp [hashable] at h
  | .hashSet _, h, _ => by simp [hashable] at h
  | .nonZero t, h, _ => by
    cases t with
    | prim p => rw [hashable] at h; exact key_nz h
    | _ => simp [hashable] at h
  | .tuple ts, h, hd => by
    rw [hashable] at h
    rw [decOk, hasDec] at hd
    rcases hd with hd | hd
    · rw [Bool.and_eq_true, tupleArm, Bool.and_eq_true, decide_eq_true_eq, decide_eq_true_eq] at hd
      rw [rustOf, isKey, Bool.and_eq_true, decide_eq_true_eq, rustOfs_eq, List.length_map]
      exact ⟨hd.1.2, rustOfs_eq o ts ▸ keys_ok o ts h hd.2⟩
    · simp at hd
  | .ext _ _, h, _ => by simp [hashable] at h
  | .param _, h, _ => by simp [hashable] at h
  | .inst t, h, hd => by
    rw [hashable] at h
    rw [decOk, hasDec] at hd
    rw [rustOf]
    exact key_ok o t h (.inr (hd.resolve_left (by simp)))
theorem keys_ok (o : BytesType) : ∀ ts : List Ty, hashables ts = true → decOks o arity ts = true →
    areKeys (rustOfs o ts) = true
  | [], _, _ => rfl
  | t :: ts, h, hd => by
    rw [hashables, Bool.and_eq_true] at h
    rw [decOks, Bool.and_eq_true] at hd
    rw [rustOfs, areKeys, Bool.and_eq_true]
    exact ⟨key_ok o t h.1 (.inl hd.1), keys_ok o ts h.2 hd.2⟩
end

theorem derive_one {n : String} {t : Rt} (hn : n ≠ "HashMap" ∧ n ≠ "HashSet" ∨ isKey t = true) (h : canDerive t = true) :
    canDerive (.builtin n [t]) = true := by
  rw [canDerive, allDerive, allDerive, h]
  rcases hn with hn | hn <;> simp [hn]

theorem derive_two {n : String} {t u : Rt} (hk : isKey t = true) (h : canDerive t = true) (h' : canDerive u = true) :
    canDerive (.builtin n [t, u]) = true := by
  rw [canDerive, allDerive, allDerive, allDerive, h, h']
  simp [hk]

mutual
theorem derive_ok (o : BytesType) : ∀ t : Ty, (decOk o arity t = true ∨ hasDec o arity t = true) →
    canDerive (rustOf o t) = true
  | .prim p, _ => derive_prim o p
  | .vec t, hd => by
    rw [decOk, hasDec] at hd
    exact derive_one (.inl ⟨by decide, by decide⟩) (derive_ok o t hd)
  | .option t, hd => by
    rw [decOk, hasDec] at hd
    exact derive_one (.inl ⟨by decide, by decide⟩) (derive_ok o t hd)
  | .array t _, hd => by
    rw [decOk, hasDec] at hd
    rw [rustOf, canDerive]
    exact derive_ok o t hd
  | .hashMap k v, hd => by
    simp only [decOk, hasDec, Bool.and_eq_true] at hd
    have hd' : hashable k = true ∧ (decOk o arity k = true ∨ hasDec o arity k = true) ∧
        (decOk o arity v = true ∨ hasDec o arity v = true) := by
      rcases hd with ⟨⟨h1, h2⟩, h3⟩ | ⟨⟨h1, h2⟩, h3⟩
      · exact ⟨h1, .inl h2, .inl h3⟩
      · exact ⟨h1, .inr h2, .inr h3⟩
    exact derive_two (key_ok o k hd'.1 hd'.2.1) (derive_ok o k hd'.2.1) (derive_ok o v hd'.2.2)
  | .hashSet t, hd => by
    simp only [decOk, hasDec, Bool.and_eq_true] at hd
    have hd' : hashable t = true ∧ (decOk o arity t = true ∨ hasDec o arity t = true) := by
      rcases hd with ⟨h1, h2⟩ | ⟨h1, h2⟩
      · exact ⟨h1, .inl h2⟩
      · exact ⟨h1, .inr h2⟩
    exact derive_one (.inr (key_ok o t hd'.1 hd'.2)) (derive_ok o t hd'.2)
  | .nonZero (.prim p), _ => derive_nz o p
  | .nonZero (.vec t), hd => by
    simp only [decOk, hasDec, or_false, Bool.false_eq_true] at hd
    exact derive_one (.inl ⟨by decide, by decide⟩) (derive_one (.inl ⟨by decide, by decide⟩) (derive_ok o t (.inl hd)))
  | .nonZero (.hashSet t), hd => by
    simp only [decOk, hasDec, or_false, Bool.false_eq_true, Bool.and_eq_true] at hd
    exact derive_one (.inl ⟨by decide, by decide⟩)
      (derive_one (.inr (key_ok o t hd.1 (.inl hd.2))) (derive_ok o t (.inl hd.2)))
  | .nonZero (.hashMap k v), hd => by
    simp only [decOk, hasDec, or_false, Bool.false_eq_true, Bool.and_eq_true] at hd
    exact derive_one (.inl ⟨by decide, by decide⟩)
      (derive_two (key_ok o k hd.1.1 (.inl hd.1.2)) (derive_ok o k (.inl hd.1.2)) (derive_ok o v (.inl hd.2)))
  | .nonZero (.option _), hd | .nonZero (.array _ _), hd | .nonZero (.nonZero _), hd | .nonZero (.tuple _), hd
  | .nonZero (.ext _ _), hd | .nonZero (.param _), hd | .nonZero (.inst _), hd => by
    simp [decOk, hasDec] at hd
  | .tuple ts, hd => by
    rw [decOk, hasDec] at hd
    have hd := hd.resolve_right (by simp)
    rw [Bool.and_eq_true, tupleArm, Bool.and_eq_true, decide_eq_true_eq, decide_eq_true_eq] at hd
    rw [rustOf, canDerive, Bool.and_eq_true, decide_eq_true_eq, rustOfs_eq, List.length_map]
    exact ⟨hd.1.2, rustOfs_eq o ts ▸ derives_ok o ts (.inl hd.2)⟩
  | .ext abs args, hd => by
    rw [decOk, or_self, hasDec, Bool.and_eq_true] at hd
    rw [rustOf, canDerive]
    exact derives_ok o args (.inr hd.2)
  | .param _, _ => rfl
  | .inst t, hd => by
    rw [decOk, hasDec] at hd
    rw [rustOf]
    exact derive_ok o t (.inr (hd.resolve_left (by simp)))
theorem derives_ok (o : BytesType) : ∀ ts : List Ty, (decOks o arity ts = true ∨ hasDecs o arity ts = true) →
    allDerive (rustOfs o ts) = true
  | [], _ => rfl
  | t :: ts, hd => by
    simp only [decOks, hasDecs, Bool.and_eq_true] at hd
    rw [rustOfs, allDerive, Bool.and_eq_true]
    rcases hd with ⟨h1, h2⟩ | ⟨h1, h2⟩
    · exact ⟨derive_ok o t (.inl h1), derives_ok o ts (.inl h2)⟩
    · exact ⟨derive_ok o t (.inr h1), derives_ok o ts (.inr h2)⟩
end

/-! ### The definitions of the crate -/

theorem goodField {o : BytesType} {sc : Scope} {it : Build.Item} (h : itemGood o sc it = true) {t : Simplify.Ty}
    (ht : t ∈ fieldTypes it) : textOk o sc t = true ∧ decOk o sc.arity (Build.lowerTy sc.look sc.generics t) = true := by
  have key : ∀ fs : Simplify.Fields, fieldsGood o sc fs = true → ∀ f ∈ fs.fields, textOk o sc f.ty = true ∧
      decOk o sc.arity (Build.lowerTy sc.look sc.generics f.ty) = true := fun fs hg f hf => by
    rw [fieldsGood, Bool.and_eq_true, List.all_eq_true] at hg
    have := hg.2 f hf
    simp only [fieldGood, fieldText, Bool.and_eq_true] at this
    exact ⟨this.1.1.2.2, this.2⟩
  cases it with
  | struct s =>
    rw [fieldTypes, List.mem_map] at ht
    obtain ⟨f, hf, rfl⟩ := ht
    exact key _ h f hf
  | enum e =>
    rw [fieldTypes, List.mem_map] at ht
    obtain ⟨f, hf, rfl⟩ := ht
    obtain ⟨v, hv, hf⟩ := List.mem_flatMap.1 hf
    rw [itemGood, Bool.and_eq_true, List.all_eq_true] at h
    have := h.2 v hv
    rw [Bool.and_eq_true] at this
    exact key _ this.2 f hf

/-- The Rust types of the fields. -/
def rustTypes (files : Files) (o : BytesType) (abs : List String) (it : Build.Item) : List Rt :=
  (fieldTypes it).map fun t => rustOf o (Build.lowerTy (resolvePath files abs.dropLast) it.generics t)

theorem textOks_of {o : BytesType} {sc : Scope} : ∀ {ts : List Simplify.Ty}, (∀ t ∈ ts, textOk o sc t = true) → textOks o sc ts = true
  | [], _ => rfl
  | t :: ts, h => by
    rw [textOks, h t List.mem_cons_self, textOks_of fun t ht => h t (List.mem_cons_of_mem _ ht)]
    rfl

theorem defs_eq {files : Files} {o : BytesType} (hg : CrateGood files o) {abs : List String} {it : Build.Item}
    (hit : itemAt files abs = some it) : defsOf files o abs = some (it.generics.length, rustTypes files o abs it) := by
  obtain ⟨es, h1, h2⟩ := texts_ok (sc := scopeAt files abs.dropLast it.generics) o (fieldTypes it)
    (textOks_of fun t ht => (goodField (hg abs it hit).2 ht).1)
  have e : rustOfs o (Build.lowerTys (resolvePath files abs.dropLast) it.generics (fieldTypes it)) =
      rustTypes files o abs it := by
    rw [rustOfs_eq, lowerTys_map, List.map_map]
    rfl
  simp only [defsOf, hit, written, h1, h2, bind, Option.bind, pure]
  exact congrArg (fun x => some (it.generics.length, x)) e

theorem defs_some {files : Files} {o : BytesType} (hg : CrateGood files o) {abs : List String} {k : Nat} {fs : List Rt}
    (h : defsOf files o abs = some (k, fs)) :
    ∃ it, itemAt files abs = some it ∧ k = it.generics.length ∧ fs = rustTypes files o abs it := by
  cases hit : itemAt files abs with
  | none => simp [defsOf, hit] at h
  | some it =>
    rw [defs_eq hg hit, Option.some.injEq, Prod.mk.injEq] at h
    exact ⟨it, rfl, h.1.symm, h.2.symm⟩

section
variable {files : Files} {o : BytesType} (hg : CrateGood files o)
include hg

mutual
theorem known_ty {m g : List String} : ∀ t : Simplify.Ty, textOk o (scopeAt files m g) t = true →
    Known (defsOf files o) (rustOf o (Build.lowerTy (resolvePath files m) g t))
  | .prim p, _ => by cases p <;> cases o <;> simp [Build.lowerTy, rustOf, rustPrim, Known, AllKnown, base]
  | .vec t, h => by
    rw [textOk, Bool.and_eq_true] at h
    simp only [Build.lowerTy, rustOf, Known, AllKnown, and_true]
    exact known_ty t h.2
  | .option t, h => by
    rw [textOk, Bool.and_eq_true] at h
    simp only [Build.lowerTy, rustOf, Known, AllKnown, and_true]
    exact known_ty t h.2
  | .hashSet t, h => by
    rw [textOk] at h
    simp only [Build.lowerTy, rustOf, Known, AllKnown, and_true]
    exact known_ty t h
  | .array t _, h => by
    rw [textOk] at h
    simp only [Build.lowerTy, rustOf, Known, AllKnown, and_true]
    exact known_ty t h
  | .hashMap k v, h => by
    rw [textOk, Bool.and_eq_true] at h
    simp only [Build.lowerTy, rustOf, Known, AllKnown, and_true]
    exact ⟨known_ty k h.1, known_ty v h.2⟩
  | .nonZero (.prim p), _ => by
    cases p <;> cases o <;> simp [Build.lowerTy, rustOf, rustNonZero, rustPrim, Known, AllKnown, base]
  | .nonZero (.vec t), h => by
    rw [textOk] at h
    simp only [Build.lowerTy, rustOf, Known, AllKnown, and_true]
    exact known_ty t h
  | .nonZero (.hashSet t), h => by
    rw [textOk] at h
    simp only [Build.lowerTy, rustOf, Known, AllKnown, and_true]
    exact known_ty t h
  | .nonZero (.hashMap k v), h => by
    rw [textOk, Bool.and_eq_true] at h
    simp only [Build.lowerTy, rustOf, Known, AllKnown, and_true]
    exact ⟨known_ty k h.1, known_ty v h.2⟩
  | .nonZero (.option _), h | .nonZero (.array _ _), h | .nonZero (.nonZero _), h | .nonZero (.tuple _), h
  | .nonZero (.external _ _ _), h => by
    simp [textOk] at h
  | .tuple ts, h => by
    rw [textOk] at h
    simp only [Build.lowerTy, rustOf, Known]
    exact known_tys ts h
  | .external path name args, h => by
    rw [textOk] at h
    rw [Build.lowerTy]
    by_cases hc : path = [] ∧ name ∈ g
    · rw [if_pos hc, rustOf, Known]
      trivial
    · rw [if_neg (show ¬ (path = [] ∧ name ∈ (scopeAt files m g).generics) from hc), Bool.and_eq_true] at h
      rw [if_neg hc, rustOf, Known]
      refine ⟨?_, known_tys args h.2⟩
      cases hl : (scopeAt files m g).look path name with
      | none => simp [hl] at h
      | some abs =>
        have h1 := h.1
        simp only [hl, decide_eq_true_eq] at h1
        have hl' : resolvePath files m path name = some abs := hl
        simp only [scopeAt, Option.map_eq_some_iff] at h1
        obtain ⟨it, hit, hlen⟩ := h1
        rw [hl', Option.getD_some, rustOfs_eq, lowerTys_map, List.length_map, List.length_map, ← hlen]
        exact ⟨_, defs_eq hg hit⟩
theorem known_tys {m g : List String} : ∀ ts : List Simplify.Ty, textOks o (scopeAt files m g) ts = true →
    AllKnown (defsOf files o) (rustOfs o (Build.lowerTys (resolvePath files m) g ts))
  | [], _ => trivial
  | t :: ts, h => by
    rw [textOks, Bool.and_eq_true] at h
    exact ⟨known_ty t h.1, known_tys ts h.2⟩
end

end

/-! ### Mentioned parameters -/

section
variable {o : BytesType} {look : List String → String → Option (List String)} {sc : Scope} {p : String}

mutual
theorem param_ty {tr : Bool} : ∀ {t : Ast.DataType} {u : Simplify.Ty}, Spec.SameType t u → textOk o sc u = true → p ∈ sc.generics →
    Spec.Part (.external [] p [] tr) t → sc.generics.idxOf p ∈ paramsOf (rustOf o (Build.lowerTy look sc.generics u))
  | _, _, .prim _, _, _, hp => nomatch hp
  | _, _, .vec h, ht, hm, .vec hp => by
    rw [textOk, Bool.and_eq_true] at ht
    simp only [Build.lowerTy, rustOf, paramsOf, allParams, List.append_nil]
    exact param_ty h ht.2 hm hp
  | _, _, .option h, ht, hm, .option hp => by
    rw [textOk, Bool.and_eq_true] at ht
    simp only [Build.lowerTy, rustOf, paramsOf, allParams, List.append_nil]
    exact param_ty h ht.2 hm hp
  | _, _, .hashSet h, ht, hm, .hashSet hp => by
    rw [textOk] at ht
    simp only [Build.lowerTy, rustOf, paramsOf, allParams, List.append_nil]
    exact param_ty h ht hm hp
  | _, _, .array h, ht, hm, .array hp => by
    rw [textOk] at ht
    simp only [Build.lowerTy, rustOf, paramsOf]
    exact param_ty h ht hm hp
  | _, _, .hashMap h _, ht, hm, .hashMapKey hp => by
    rw [textOk, Bool.and_eq_true] at ht
    simp only [Build.lowerTy, rustOf, paramsOf, allParams, List.append_nil, List.mem_append]
    exact .inl (param_ty h ht.1 hm hp)
  | _, _, .hashMap _ h, ht, hm, .hashMapValue hp => by
    rw [textOk, Bool.and_eq_true] at ht
    simp only [Build.lowerTy, rustOf, paramsOf, allParams, List.append_nil, List.mem_append]
    exact .inr (param_ty h ht.2 hm hp)
  | _, _, .nonZero _, _, _, hp => nomatch hp
  | _, _, .tuple h, ht, hm, .tuple hx hp => by
    rw [textOk] at ht
    simp only [Build.lowerTy, rustOf, paramsOf]
    exact param_tys h ht hm hx hp
  | _, .external _ _ us, .external (p := path) (n := n) (ts := ts) h, ht, hm, hp => by
    rw [textOk] at ht
    rw [Build.lowerTy]
    by_cases hc : path = [] ∧ n ∈ sc.generics
    · rw [if_pos hc] at ht ⊢
      rw [List.isEmpty_iff] at ht
      subst ht
      cases h
      cases hp with
      | here => simp [rustOf, paramsOf]
      | argument hx _ => simp at hx
    · rw [if_neg hc, Bool.and_eq_true] at ht
      rw [if_neg hc, rustOf, paramsOf]
      cases hp with
      | here => exact absurd ⟨rfl, hm⟩ hc
      | argument hx hp => exact param_tys h ht.2 hm hx hp
theorem param_tys {tr : Bool} {x : Ast.DataType} : ∀ {ts : List Ast.DataType} {us : List Simplify.Ty}, Spec.SameTypes ts us →
    textOks o sc us = true → p ∈ sc.generics → x ∈ ts →
    Spec.Part (.external [] p [] tr) x → sc.generics.idxOf p ∈ allParams (rustOfs o (Build.lowerTys look sc.generics us))
  | _, _, .nil, _, _, hx, _ => nomatch hx
  | _, _, .cons h hs, ht, hm, hx, hp => by
    rw [textOks, Bool.and_eq_true] at ht
    simp only [Build.lowerTys, rustOfs, allParams, List.mem_append]
    rcases List.mem_cons.1 hx with e | hx
    · rw [e] at hp
      exact .inl (param_ty h ht.1 hm hp)
    · exact .inr (param_tys hs ht.2 hm hx hp)
end
end

end Mabo.Layout
