import Verif.Go.Render
import Verif.Spec.Go
import Verif.Compiler.GeneratorLemmas
/-! When the Go generator finishes. -/
namespace Mabo.Go
open Mabo.Spec Mabo.Compiler Mabo.Simplify
open Mabo.Spec.Go (NonZeroName Nameable HasCodec)
open Mabo.Ast (DataType)

theorem fmt_isSome : ∀ ps, (fmt ps).isSome = ps.all Option.isSome
  | [] => rfl
  | p :: ps => by
    have := fmt_isSome ps
    have he : fmt (p :: ps) = match p, fmt ps with
      | some a, some b => some (a ++ b)
      | _, _ => none := rfl
    rw [he, List.all_cons, ← this]
    cases p <;> cases fmt ps <;> rfl

theorem l_isSome (x : String) : (l x).isSome = true := rfl
theorem up_isSome (x : String) : (up x).isSome = true := rfl
theorem low_isSome (x : String) : (low x).isSome = true := rfl

theorem brackets_isSome (b : Bool) (i : Option Parse.Text) : (brackets b i).isSome = (b || i.isSome) := by
  cases b <;> simp [brackets, fmt_isSome, l_isSome]

theorem comment_isSome (n : Nat) (ls : List String) : (comment n ls).isSome = true := by
  simp [comment, fmt_isSome, l_isSome]

theorem decSingle_isSome (fn : String) (n : Nat) (a b : Option Parse.Text) :
    (decSingle fn n a b).isSome = (a.isSome && b.isSome) := by
  cases a <;> simp [decSingle, fmt_isSome, l_isSome]

theorem decPair_isSome (fn : String) (n : Nat) (a b c d : Option Parse.Text) :
    (decPair fn n a b c d).isSome = (a.isSome && b.isSome && c.isSome && d.isSome) := by
  cases a <;> cases b <;> cases c <;> cases d <;> simp [decPair, fmt_isSome, l_isSome]

/-! ### Names of types -/

theorem nameable_vec {t} : Nameable (.vec t) ↔ Nameable t :=
  ⟨fun h a hp => h a (.vec hp), fun h a hp => by cases hp; exact h a (by assumption)⟩
theorem nameable_hashSet {t} : Nameable (.hashSet t) ↔ Nameable t :=
  ⟨fun h a hp => h a (.hashSet hp), fun h a hp => by cases hp; exact h a (by assumption)⟩
theorem nameable_option {t} : Nameable (.option t) ↔ Nameable t :=
  ⟨fun h a hp => h a (.option hp), fun h a hp => by cases hp; exact h a (by assumption)⟩
theorem nameable_array {t n} : Nameable (.array t n) ↔ Nameable t :=
  ⟨fun h a hp => h a (.array hp), fun h a hp => by cases hp; exact h a (by assumption)⟩
theorem nameable_prim (p) : Nameable (.prim p) := fun a h => by cases h
theorem nameable_hashMap {k v} : Nameable (.hashMap k v) ↔ Nameable k ∧ Nameable v := by
  constructor
  · intro h; exact ⟨fun a hp => h a (.hashMapKey hp), fun a hp => h a (.hashMapValue hp)⟩
  · rintro ⟨h1, h2⟩ a hp
    cases hp with
    | hashMapKey hp => exact h1 a hp
    | hashMapValue hp => exact h2 a hp
theorem nameable_nonZero {t} : Nameable (.nonZero t) ↔ NonZeroName t ∧ Nameable t := by
  constructor
  · intro h; exact ⟨h t .here, fun a hp => h a (.nonZero hp)⟩
  · rintro ⟨h1, h2⟩ a hp
    cases hp with
    | here => exact h1
    | nonZero hp => exact h2 a hp
theorem nameable_tuple {ts tr} : Nameable (.tuple ts tr) ↔ ∀ t ∈ ts, Nameable t := by
  constructor
  · intro h t ht a hp; exact h a (.tuple ht hp)
  · intro h a hp; cases hp with | tuple ht hp => exact h _ ht a hp
theorem nameable_external {p n ts tr} : Nameable (.external p n ts tr) ↔ ∀ t ∈ ts, Nameable t := by
  constructor
  · intro h t ht a hp; exact h a (.argument ht hp)
  · intro h a hp; cases hp with | argument ht hp => exact h _ ht a hp

theorem defNonZero_isSome (p : Schema.Prim) : (defNonZero p).isSome = true ↔ NonZeroName (.prim p) := by
  cases p <;> simp [defNonZero, NonZeroName, l_isSome]

theorem simplifyTypes_isEmpty (ts : List DataType) : (simplifyTypes ts).isEmpty = ts.isEmpty := by
  cases ts <;> rfl

mutual
theorem defTy_isSome : ∀ t : DataType, (defTy (simplifyType t)).isSome = true ↔ Nameable t
  | .prim p => by simp [simplifyType, defTy, l_isSome, nameable_prim]
  | .vec t => by
    rw [nameable_vec, ← defTy_isSome t]; simp [simplifyType, defTy, fmt_isSome, l_isSome]
  | .hashSet t => by
    rw [nameable_hashSet, ← defTy_isSome t]; simp [simplifyType, defTy, fmt_isSome, l_isSome]
  | .option t => by
    rw [nameable_option, ← defTy_isSome t]; simp [simplifyType, defTy, fmt_isSome, l_isSome]
  | .array t n => by
    rw [nameable_array, ← defTy_isSome t]; simp [simplifyType, defTy, fmt_isSome, l_isSome]
  | .hashMap k v => by
    rw [nameable_hashMap, ← defTy_isSome k, ← defTy_isSome v]; simp [simplifyType, defTy, fmt_isSome, l_isSome]
  | .nonZero (.prim p) => by
    rw [nameable_nonZero]; simp [simplifyType, defTy, defNonZero_isSome, nameable_prim]
  | .nonZero (.vec t) => by
    rw [nameable_nonZero, nameable_vec, ← defTy_isSome t]
    simp [simplifyType, defTy, fmt_isSome, l_isSome, NonZeroName]
  | .nonZero (.hashSet t) => by
    rw [nameable_nonZero, nameable_hashSet, ← defTy_isSome t]
    simp [simplifyType, defTy, fmt_isSome, l_isSome, NonZeroName]
  | .nonZero (.hashMap k v) => by
    rw [nameable_nonZero, nameable_hashMap, ← defTy_isSome k, ← defTy_isSome v]
    simp [simplifyType, defTy, fmt_isSome, l_isSome, NonZeroName]
  | .nonZero (.option t) => by rw [nameable_nonZero]; simp [simplifyType, defTy, NonZeroName]
  | .nonZero (.nonZero t) => by rw [nameable_nonZero]; simp [simplifyType, defTy, NonZeroName]
  | .nonZero (.tuple t _) => by rw [nameable_nonZero]; simp [simplifyType, defTy, NonZeroName]
  | .nonZero (.array t _) => by rw [nameable_nonZero]; simp [simplifyType, defTy, NonZeroName]
  | .nonZero (.external _ _ _ _) => by rw [nameable_nonZero]; simp [simplifyType, defTy, NonZeroName]
  | .tuple ts _ => by
    rw [nameable_tuple, ← defTys_isSome true ts]
    cases ts <;> simp [simplifyType, simplifyTypes, defTy, defTys, fmt_isSome, l_isSome, brackets_isSome]
  | .external path _ ts _ => by
    rw [nameable_external, ← defTys_isSome true ts]
    cases hp : path.getLast? <;> cases ts <;>
      simp [simplifyType, simplifyTypes, defTy, defTys, fmt_isSome, l_isSome, up_isSome, brackets_isSome, hp]
theorem defTys_isSome : ∀ (b : Bool) (ts : List DataType), (defTys b (simplifyTypes ts)).isSome = true ↔
    ∀ t ∈ ts, Nameable t
  | b, [] => by simp [simplifyTypes, defTys]
  | b, t :: ts => by
    have h1 := defTy_isSome t
    have h2 := defTys_isSome false ts
    cases b <;> simp [simplifyTypes, defTys, fmt_isSome, l_isSome, h1, h2]
end

/-! ### Codecs -/

/-- All parts of the type itself have a codec. -/
def Own (t : DataType) : Prop := ∀ u, OwnPiece u t → HasCodec u

theorem own_prim (p) : Own (.prim p) := fun u h => by cases h; trivial
theorem own_external (p n g tr) : Own (.external p n g tr) := fun u h => by cases h; trivial
theorem own_vec {t} : Own (.vec t) ↔ Own t :=
  ⟨fun h u hp => h u (.vec hp), fun h u hp => by cases hp <;> first | trivial | exact h u (by assumption)⟩
theorem own_hashSet {t} : Own (.hashSet t) ↔ Own t :=
  ⟨fun h u hp => h u (.hashSet hp), fun h u hp => by cases hp <;> first | trivial | exact h u (by assumption)⟩
theorem own_option {t} : Own (.option t) ↔ Own t :=
  ⟨fun h u hp => h u (.option hp), fun h u hp => by cases hp <;> first | trivial | exact h u (by assumption)⟩
theorem own_hashMap {k v} : Own (.hashMap k v) ↔ Own k ∧ Own v := by
  constructor
  · intro h; exact ⟨fun u hp => h u (.hashMapKey hp), fun u hp => h u (.hashMapValue hp)⟩
  · rintro ⟨h1, h2⟩ u hp
    cases hp with
    | here => trivial
    | hashMapKey hp => exact h1 u hp
    | hashMapValue hp => exact h2 u hp
theorem own_nonZero {t} : Own (.nonZero t) ↔ NonZeroAble t ∧ Own t := by
  constructor
  · intro h; exact ⟨h _ .here, fun u hp => h u (.nonZero hp)⟩
  · rintro ⟨h1, h2⟩ u hp
    cases hp with
    | here => exact h1
    | nonZero hp => exact h2 u hp
theorem own_array {t n} : Own (.array t n) ↔ (1 ≤ n.toNat ∧ n.toNat ≤ 32) ∧ Own t := by
  constructor
  · intro h; exact ⟨h _ .here, fun u hp => h u (.array hp)⟩
  · rintro ⟨h1, h2⟩ u hp
    cases hp with
    | here => exact h1
    | array hp => exact h2 u hp
theorem own_tuple {ts tr} : Own (.tuple ts tr) ↔ (2 ≤ ts.length ∧ ts.length ≤ 12) ∧ ∀ t ∈ ts, Own t := by
  constructor
  · intro h; exact ⟨h _ .here, fun t ht u hp => h u (.tuple ht hp)⟩
  · rintro ⟨h1, h2⟩ u hp
    cases hp with
    | here => exact h1
    | tuple ht hp => exact h2 _ ht u hp

theorem tupleArm_iff {n : Nat} : tupleArm n = true ↔ 2 ≤ n ∧ n ≤ 12 := by simp [tupleArm]
theorem arrayArm_iff {n : Nat} : arrayArm n = true ↔ 1 ≤ n ∧ n ≤ 32 := by simp [arrayArm]

theorem nzArm_iff : ∀ t : DataType, nzArm (simplifyType t) = true ↔ NonZeroAble t
  | .prim p => by cases p <;> simp [simplifyType, nzArm, nzPrim, NonZeroAble]
  | .vec _ | .hashMap _ _ | .hashSet _ => by simp [simplifyType, nzArm, NonZeroAble]
  | .option _ | .nonZero _ | .tuple _ _ | .array _ _ | .external _ _ _ _ => by simp [simplifyType, nzArm, NonZeroAble]

theorem ite_isSome (c : Prop) [Decidable c] (x : Option Parse.Text) :
    (if c then x else none).isSome = true ↔ c ∧ x.isSome = true := by
  by_cases h : c <;> simp [h]

mutual
/-- Encoding text exists if the type can be named and all its parts have codecs. -/
theorem encTy_isSome : ∀ (n : Nat) (x : Parse.Text) (t : DataType), Nameable t →
    ((encTy n x (simplifyType t)).isSome = true ↔ Own t)
  | _, _, .prim p, _ => by simp [simplifyType, encTy, fmt_isSome, l_isSome, own_prim]
  | n, x, .vec t, hn => by
    have hn := nameable_vec.1 hn
    rw [own_vec, ← encTy_isSome (n + 1) ['v'] t hn]
    simp [simplifyType, encTy, fmt_isSome, l_isSome, (defTy_isSome t).2 hn]
  | n, x, .hashSet t, hn => by
    have hn := nameable_hashSet.1 hn
    rw [own_hashSet, ← encTy_isSome (n + 1) ['v'] t hn]
    simp [simplifyType, encTy, fmt_isSome, l_isSome, (defTy_isSome t).2 hn]
  | n, x, .option t, hn => by
    have hn := nameable_option.1 hn
    rw [own_option, ← encTy_isSome (n + 1) ['v'] t hn]
    simp [simplifyType, encTy, fmt_isSome, l_isSome, (defTy_isSome t).2 hn]
  | n, x, .hashMap k v, hn => by
    have hn := nameable_hashMap.1 hn
    rw [own_hashMap, ← encTy_isSome (n + 2) ['k'] k hn.1, ← encTy_isSome (n + 2) ['v'] v hn.2]
    simp [simplifyType, encTy, fmt_isSome, l_isSome, (defTy_isSome k).2 hn.1, (defTy_isSome v).2 hn.2]
  | n, x, .nonZero t, hn => by
    have hn := nameable_nonZero.1 hn
    rw [own_nonZero, ← encTy_isSome n (x ++ ".Get()".toList) t hn.2, ← nzArm_iff, ← ite_isSome]
    simp only [simplifyType, encTy]
  | n, x, .array t m, hn => by
    have hn := nameable_array.1 hn
    rw [own_array, ← encTy_isSome (n + 1) ['v'] t hn, ← arrayArm_iff]
    simp [simplifyType, encTy, ite_isSome, fmt_isSome, l_isSome, (defTy_isSome t).2 hn]
  | n, x, .tuple ts _, hn => by
    have hn := nameable_tuple.1 hn
    rw [own_tuple, ← encTys_isSome n x 0 ts hn, ← tupleArm_iff]
    simp [simplifyType, encTy, ite_isSome, fmt_isSome, l_isSome, Generator.simplifyTypes_length]
  | _, _, .external _ _ _ _, _ => by simp [simplifyType, encTy, fmt_isSome, l_isSome, own_external]
theorem encTys_isSome : ∀ (n : Nat) (x : Parse.Text) (i : Nat) (ts : List DataType), (∀ t ∈ ts, Nameable t) →
    ((encTys n x i (simplifyTypes ts)).isSome = true ↔ ∀ t ∈ ts, Own t)
  | _, _, _, [], _ => by simp [simplifyTypes, encTys]
  | n, x, i, t :: ts, hn => by
    have h1 := encTy_isSome (n + 1) (x ++ ".F".toList ++ Parse.printNat i) t (hn t (by simp))
    have h2 := encTys_isSome n x (i + 1) ts (fun t ht => hn t (by simp [ht]))
    rw [List.forall_mem_cons, ← h1, ← h2]
    simp only [simplifyTypes, encTys, fmt_isSome, List.all_cons, List.all_nil, l_isSome, Option.isSome_some,
      Bool.true_and, Bool.and_true, Bool.and_eq_true]
end

mutual
theorem sizeTy_isSome : ∀ (n : Nat) (x : Parse.Text) (t : DataType), Nameable t →
    ((sizeTy n x (simplifyType t)).isSome = true ↔ Own t)
  | _, _, .prim p, _ => by simp [simplifyType, sizeTy, fmt_isSome, l_isSome, own_prim]
  | n, x, .vec t, hn => by
    have hn := nameable_vec.1 hn
    rw [own_vec, ← sizeTy_isSome (n + 1) ['v'] t hn]
    simp [simplifyType, sizeTy, fmt_isSome, l_isSome, (defTy_isSome t).2 hn]
  | n, x, .hashSet t, hn => by
    have hn := nameable_hashSet.1 hn
    rw [own_hashSet, ← sizeTy_isSome (n + 1) ['v'] t hn]
    simp [simplifyType, sizeTy, fmt_isSome, l_isSome, (defTy_isSome t).2 hn]
  | n, x, .option t, hn => by
    have hn := nameable_option.1 hn
    rw [own_option, ← sizeTy_isSome (n + 1) ['v'] t hn]
    simp [simplifyType, sizeTy, fmt_isSome, l_isSome, (defTy_isSome t).2 hn]
  | n, x, .hashMap k v, hn => by
    have hn := nameable_hashMap.1 hn
    rw [own_hashMap, ← sizeTy_isSome (n + 2) ['k'] k hn.1, ← sizeTy_isSome (n + 2) ['v'] v hn.2]
    simp [simplifyType, sizeTy, fmt_isSome, l_isSome, (defTy_isSome k).2 hn.1, (defTy_isSome v).2 hn.2]
  | n, x, .nonZero t, hn => by
    have hn := nameable_nonZero.1 hn
    rw [own_nonZero, ← sizeTy_isSome n (x ++ ".Get()".toList) t hn.2, ← nzArm_iff, ← ite_isSome]
    simp only [simplifyType, sizeTy]
  | n, x, .array t m, hn => by
    have hn := nameable_array.1 hn
    rw [own_array, ← sizeTy_isSome (n + 1) ['v'] t hn, ← arrayArm_iff]
    simp [simplifyType, sizeTy, ite_isSome, fmt_isSome, l_isSome, (defTy_isSome t).2 hn]
  | n, x, .tuple ts _, hn => by
    have hn := nameable_tuple.1 hn
    rw [own_tuple, ← sizeTys_isSome n x 0 ts hn, ← tupleArm_iff]
    simp [simplifyType, sizeTy, ite_isSome, fmt_isSome, l_isSome, Generator.simplifyTypes_length]
  | _, _, .external _ _ _ _, _ => by simp [simplifyType, sizeTy, fmt_isSome, l_isSome, own_external]
theorem sizeTys_isSome : ∀ (n : Nat) (x : Parse.Text) (i : Nat) (ts : List DataType), (∀ t ∈ ts, Nameable t) →
    ((sizeTys n x i (simplifyTypes ts)).isSome = true ↔ ∀ t ∈ ts, Own t)
  | _, _, _, [], _ => by simp [simplifyTypes, sizeTys]
  | n, x, i, t :: ts, hn => by
    have h1 := sizeTy_isSome (n + 1) (x ++ ".F".toList ++ Parse.printNat i) t (hn t (by simp))
    have h2 := sizeTys_isSome n x (i + 1) ts (fun t ht => hn t (by simp [ht]))
    rw [List.forall_mem_cons, ← h1, ← h2]
    simp only [simplifyTypes, sizeTys, fmt_isSome, List.all_cons, List.all_nil, l_isSome, Option.isSome_some,
      Bool.true_and, Bool.and_true, Bool.and_eq_true]
end

theorem nzPrim_iff (p : Schema.Prim) : nzPrim p = true ↔ NonZeroAble (.prim p) := by
  cases p <;> simp [nzPrim, NonZeroAble]

mutual
theorem decTy_isSome : ∀ (n : Nat) (t : DataType), Nameable t → ((decTy n (simplifyType t)).isSome = true ↔ Own t)
  | _, .prim p, _ => by simp [simplifyType, decTy, fmt_isSome, l_isSome, own_prim]
  | n, .vec t, hn => by
    have hn := nameable_vec.1 hn
    rw [own_vec, ← decTy_isSome (n + 1) t hn]
    simp [simplifyType, decTy, decSingle_isSome, (defTy_isSome t).2 hn]
  | n, .hashSet t, hn => by
    have hn := nameable_hashSet.1 hn
    rw [own_hashSet, ← decTy_isSome (n + 1) t hn]
    simp [simplifyType, decTy, decSingle_isSome, (defTy_isSome t).2 hn]
  | n, .option t, hn => by
    have hn := nameable_option.1 hn
    rw [own_option, ← decTy_isSome (n + 1) t hn]
    simp [simplifyType, decTy, decSingle_isSome, (defTy_isSome t).2 hn]
  | n, .hashMap k v, hn => by
    have hn := nameable_hashMap.1 hn
    rw [own_hashMap, ← decTy_isSome (n + 2) k hn.1, ← decTy_isSome (n + 2) v hn.2]
    simp [simplifyType, decTy, decPair_isSome, (defTy_isSome k).2 hn.1, (defTy_isSome v).2 hn.2]
  | n, .nonZero (.prim p), hn => by
    rw [own_nonZero, ← nzPrim_iff]
    simp [simplifyType, decTy, ite_isSome, fmt_isSome, l_isSome, own_prim]
  | n, .nonZero (.vec t), hn => by
    have hn := nameable_vec.1 (nameable_nonZero.1 hn).2
    rw [own_nonZero, own_vec, ← decTy_isSome (n + 1) t hn]
    simp [simplifyType, decTy, decSingle_isSome, (defTy_isSome t).2 hn, NonZeroAble]
  | n, .nonZero (.hashSet t), hn => by
    have hn := nameable_hashSet.1 (nameable_nonZero.1 hn).2
    rw [own_nonZero, own_hashSet, ← decTy_isSome (n + 1) t hn]
    simp [simplifyType, decTy, decSingle_isSome, (defTy_isSome t).2 hn, NonZeroAble]
  | n, .nonZero (.hashMap k v), hn => by
    have hn := nameable_hashMap.1 (nameable_nonZero.1 hn).2
    rw [own_nonZero, own_hashMap, ← decTy_isSome (n + 2) k hn.1, ← decTy_isSome (n + 2) v hn.2]
    simp [simplifyType, decTy, decPair_isSome, (defTy_isSome k).2 hn.1, (defTy_isSome v).2 hn.2, NonZeroAble]
  | n, .nonZero (.option t), _ => by rw [own_nonZero]; simp [simplifyType, decTy, NonZeroAble]
  | n, .nonZero (.nonZero t), _ => by rw [own_nonZero]; simp [simplifyType, decTy, NonZeroAble]
  | n, .nonZero (.tuple t _), _ => by rw [own_nonZero]; simp [simplifyType, decTy, NonZeroAble]
  | n, .nonZero (.array t _), _ => by rw [own_nonZero]; simp [simplifyType, decTy, NonZeroAble]
  | n, .nonZero (.external _ _ _ _), _ => by rw [own_nonZero]; simp [simplifyType, decTy, NonZeroAble]
  | n, .array t m, hn => by
    have hn := nameable_array.1 hn
    rw [own_array, ← decTy_isSome (n + 1) t hn, ← arrayArm_iff]
    simp [simplifyType, decTy, ite_isSome, fmt_isSome, l_isSome, (defTy_isSome t).2 hn]
  | n, .tuple ts _, hn => by
    have hn := nameable_tuple.1 hn
    rw [own_tuple, ← decTys_isSome n 0 ts hn, ← tupleArm_iff]
    simp [simplifyType, decTy, ite_isSome, fmt_isSome, l_isSome, Generator.simplifyTypes_length]
  | _, .external p m ts tr, hn => by
    have hd := (defTy_isSome _).2 hn
    rw [simplifyType] at hd
    simp [simplifyType, decTy, fmt_isSome, l_isSome, own_external, hd]
theorem decTys_isSome : ∀ (n : Nat) (i : Nat) (ts : List DataType), (∀ t ∈ ts, Nameable t) →
    ((decTys n i (simplifyTypes ts)).isSome = true ↔ ∀ t ∈ ts, Own t)
  | _, _, [], _ => by simp [simplifyTypes, decTys]
  | n, i, t :: ts, hn => by
    have h1 := decTy_isSome (n + 1) t (hn t (by simp))
    have h2 := decTys_isSome n (i + 1) ts (fun t ht => hn t (by simp [ht]))
    rw [List.forall_mem_cons, ← h1, ← h2]
    simp only [simplifyTypes, decTys, fmt_isSome, List.all_cons, List.all_nil, l_isSome, Option.isSome_some,
      Bool.true_and, Bool.and_true, Bool.and_eq_true]
end

/-! ### Fields -/

/-- Everything written for one field. -/
def fieldOk (_ : Schema.FieldKind) (f : Field) : Bool :=
  (defTy f.ty).isSome && (encField f).isSome && (decField f).isSome && (sizeField f).isSome

/-- The types that a generator can handle. -/
def TypeOk (t : DataType) : Prop := Nameable t ∧ ∀ u, OwnPiece u t → HasCodec u

theorem encField_isSome (f : Field) (t : DataType) (h : f.ty = simplifyType t) (hn : Nameable t) :
    (encField f).isSome = true ↔ Own t := by
  cases t with
  | option t =>
    have hn := nameable_option.1 hn
    rw [own_option, ← encTy_isSome 2 ['v'] t hn]
    simp [encField, h, simplifyType, fmt_isSome, l_isSome, up_isSome, (defTy_isSome t).2 hn]
  | _ =>
    rw [← encTy_isSome 2 ("v.".toList ++ upperCamel f.name.toList) _ hn]
    simp only [encField, h, simplifyType, fmt_isSome, l_isSome, List.all_cons, List.all_nil, Option.isSome_some,
      Bool.true_and, Bool.and_true]

theorem sizeField_isSome (f : Field) (t : DataType) (h : f.ty = simplifyType t) (hn : Nameable t) :
    (sizeField f).isSome = true ↔ Own t := by
  cases t with
  | option t =>
    have hn := nameable_option.1 hn
    rw [own_option, ← sizeTy_isSome 2 ['v'] t hn]
    simp [sizeField, h, simplifyType, fmt_isSome, l_isSome, up_isSome, (defTy_isSome t).2 hn]
  | _ =>
    rw [← sizeTy_isSome 2 ("v.".toList ++ upperCamel f.name.toList) _ hn]
    simp only [sizeField, h, simplifyType, fmt_isSome, l_isSome, List.all_cons, List.all_nil, Option.isSome_some,
      Bool.true_and, Bool.and_true]

theorem decField_isSome (f : Field) (t : DataType) (h : f.ty = simplifyType t) (hn : Nameable t) :
    (decField f).isSome = true ↔ Own t := by
  rw [← decTy_isSome 4 t hn]
  simp only [decField, h, fmt_isSome, l_isSome, up_isSome, List.all_cons, List.all_nil, Option.isSome_some,
    Bool.true_and, Bool.and_true]

theorem fieldOk_iff (k : Schema.FieldKind) (f : Field) (t : DataType) (h : f.ty = simplifyType t) :
    fieldOk k f = true ↔ TypeOk t := by
  simp only [fieldOk, Bool.and_eq_true, h, defTy_isSome]
  constructor
  · rintro ⟨⟨⟨h1, h2⟩, _⟩, _⟩; exact ⟨h1, (encField_isSome f t h h1).1 h2⟩
  · rintro ⟨h1, h2⟩
    exact ⟨⟨⟨h1, (encField_isSome f t h h1).2 h2⟩, (decField_isSome f t h h1).2 h2⟩, (sizeField_isSome f t h h1).2 h2⟩

/-- Everything written for the fields. -/
def fieldsOk (fs : Fields) : Bool := fs.fields.all (fieldOk fs.kind)

theorem nameBrackets_isSome (x : Parse.Text) (gs : List String) : (nameBrackets x gs).isSome = true := by
  cases gs <;> rfl

theorem structBody_isSome (fs : Fields) : (structBody fs).isSome = fs.fields.all fun f => (defTy f.ty).isSome := by
  rw [structBody]
  cases h : fs.fields with
  | nil => rfl
  | cons f l =>
    simp only [List.isEmpty_cons, Bool.false_eq_true, if_false, fmt_isSome, List.all_cons, List.all_nil, l_isSome,
      List.all_map, List.map_cons, comment_isSome, up_isSome, Bool.true_and, Bool.and_true]
    congr 1
    congr 1
    funext g
    simp [fmt_isSome, comment_isSome, l_isSome, up_isSome]

theorem parameters_isSome (fs : Fields) : (parameters fs).isSome = fs.fields.all fun f => (defTy f.ty).isSome := by
  have : (if fs.fields.isEmpty = true then some [] else l "\n").isSome = true := by split <;> rfl
  simp only [parameters, fmt_isSome, List.all_cons, this, List.all_nil, List.all_map, Bool.true_and, Bool.and_true]
  congr 1
  funext g
  simp [fmt_isSome, l_isSome, low_isSome]

theorem constructor_isSome (fs : Fields) : (constructor fs).isSome = true := by
  rw [constructor]; split <;> simp [fmt_isSome, l_isSome, up_isSome, low_isSome]

theorem newFunc_isSome (n : Option Parse.Text) (gs : List String) (fs : Fields) (hn : n.isSome = true) :
    (newFunc n gs fs).isSome = fs.fields.all fun f => (defTy f.ty).isSome := by
  simp [newFunc, fmt_isSome, l_isSome, hn, nameBrackets_isSome, parameters_isSome, constructor_isSome]

/-- A unit has no fields, so it does not matter that its fields are not looked at. -/
def UnitEmpty (fs : Fields) : Prop := fs.kind = .unit → fs.fields = []

theorem encFields_isSome (fs : Fields) (hu : UnitEmpty fs) :
    (encFields fs).isSome = fs.fields.all fun f => (encField f).isSome := by
  rw [encFields]
  by_cases hk : fs.kind = .unit
  · rw [if_pos hk, hu hk]; rfl
  · rw [if_neg hk]; simp [fmt_isSome, l_isSome, List.all_map, Function.comp_def]

theorem sizeFields_isSome (fs : Fields) (hu : UnitEmpty fs) :
    (sizeFields fs).isSome = fs.fields.all fun f => (sizeField f).isSome := by
  rw [sizeFields]
  by_cases hk : fs.kind = .unit
  · rw [if_pos hk, hu hk]; rfl
  · rw [if_neg hk]; simp [fmt_isSome, l_isSome, List.all_map, Function.comp_def]

theorem encMethod_isSome (r : Option Parse.Text) (ret : String) (fs : Fields) (hr : r.isSome = true) (hu : UnitEmpty fs) :
    (encMethod r ret fs).isSome = fs.fields.all fun f => (encField f).isSome := by
  simp [encMethod, fmt_isSome, l_isSome, hr, encFields_isSome fs hu]

theorem sizeMethod_isSome (r : Option Parse.Text) (fs : Fields) (hr : r.isSome = true) (hu : UnitEmpty fs) :
    (sizeMethod r fs).isSome = fs.fields.all fun f => (sizeField f).isSome := by
  simp [sizeMethod, fmt_isSome, l_isSome, hr, sizeFields_isSome fs hu]

theorem foundVar_isSome (f : Field) : (foundVar f).isSome = true := by
  simp [foundVar, fmt_isSome, l_isSome, up_isSome]

theorem foundCheck_isSome (k : Schema.FieldKind) (f : Field) : (foundCheck k f).isSome = true := by
  have : (if k = Schema.FieldKind.named then some f.name.toList else some []).isSome = true := by split <;> rfl
  simp [foundCheck, fmt_isSome, l_isSome, up_isSome, this]

theorem decMethod_isSome (r : Option Parse.Text) (fs : Fields) (hr : r.isSome = true) :
    (decMethod r fs).isSome = fs.fields.all fun f => (decField f).isSome := by
  have ht : (fs.fields.all fun _ => true) = true := by simp
  simp [decMethod, fmt_isSome, l_isSome, hr, List.all_map, Function.comp_def, foundVar_isSome, foundCheck_isSome, ht]

theorem all_and {α : Type} (p q : α → Bool) (l : List α) : (l.all fun a => p a && q a) = (l.all p && l.all q) := by
  induction l with
  | nil => rfl
  | cons a l ih => simp only [List.all_cons, ih]; cases p a <;> cases q a <;> simp

theorem fieldsOk_eq (fs : Fields) : fieldsOk fs =
    ((fs.fields.all fun f => (defTy f.ty).isSome) && (fs.fields.all fun f => (encField f).isSome) &&
      (fs.fields.all fun f => (decField f).isSome) && (fs.fields.all fun f => (sizeField f).isSome)) := by
  rw [← all_and, ← all_and, ← all_and]; rfl

theorem renderStruct_isSome (s : Struct) (hu : UnitEmpty s.fields) : (renderStruct s).isSome = fieldsOk s.fields := by
  have hr : (fmt [up s.name, nameBrackets [] s.generics]).isSome = true := by
    simp [fmt_isSome, up_isSome, nameBrackets_isSome]
  simp only [renderStruct, fmt_isSome, List.all_cons, List.all_nil, comment_isSome, l_isSome, up_isSome,
    nameBrackets_isSome, structBody_isSome, newFunc_isSome _ _ _ (up_isSome s.name), encMethod_isSome _ _ _ hr hu,
    decMethod_isSome _ _ hr, sizeMethod_isSome _ _ hr hu, Bool.true_and, Bool.and_true]
  rw [fieldsOk_eq]
  cases (s.fields.fields.all fun f => (defTy f.ty).isSome) <;> simp [Bool.and_assoc]

theorem renderVariant_isSome (en : String) (gs : List String) (v : Variant) (hu : UnitEmpty v.fields) :
    (renderVariant en gs v).isSome = fieldsOk v.fields := by
  have hn : (fmt [up en, l "_", up v.name]).isSome = true := by simp [fmt_isSome, up_isSome, l_isSome]
  have hr : ∀ g, (fmt [fmt [up en, l "_", up v.name], nameBrackets [] g]).isSome = true := fun g => by
    simp [fmt_isSome, up_isSome, l_isSome, nameBrackets_isSome]
  simp only [renderVariant, fmt_isSome, List.all_cons, List.all_nil, comment_isSome, l_isSome, up_isSome,
    nameBrackets_isSome, structBody_isSome, newFunc_isSome _ _ _ hn, encMethod_isSome _ _ _ (hr _) hu,
    decMethod_isSome _ _ (hr _), sizeMethod_isSome _ _ (hr _) hu, Bool.true_and, Bool.and_true]
  rw [fieldsOk_eq]
  cases (v.fields.fields.all fun f => (defTy f.ty).isSome) <;> simp [Bool.and_assoc]

theorem renderEnum_isSome (e : Enum) (hu : ∀ v ∈ e.variants, UnitEmpty v.fields) :
    (renderEnum e).isSome = e.variants.all fun v => fieldsOk v.fields := by
  simp only [renderEnum, fmt_isSome, List.all_cons, List.all_nil, comment_isSome, l_isSome, up_isSome, Bool.true_and,
    Bool.and_true, List.all_map]
  rw [Bool.eq_iff_iff, List.all_eq_true, List.all_eq_true]
  constructor
  · intro h v hv
    have := h v hv
    simpa [fmt_isSome, l_isSome, renderVariant_isSome _ _ v (hu v hv)] using this
  · intro h v hv
    simp [fmt_isSome, l_isSome, renderVariant_isSome _ _ v (hu v hv), h v hv]

theorem renderAlias_isSome (a : TypeAlias) : (renderAlias a).isSome = (defTy a.target).isSome := by
  simp [renderAlias, fmt_isSome, l_isSome, up_isSome, comment_isSome]

theorem renderConst_isSome (std : Parse.Std) (c : Const) : (renderConst std c).isSome = (constTy c.ty).isSome := by
  simp [renderConst, fmt_isSome, l_isSome, up_isSome, comment_isSome]

theorem constTy_isSome : ∀ t : DataType, (constTy (simplifyType t)).isSome = true ↔ ConstType t
  | .prim p => by cases p <;> simp [simplifyType, constTy, ConstType, l_isSome]
  | .vec _ | .hashMap _ _ | .hashSet _ => by simp [simplifyType, constTy, ConstType]
  | .option _ | .nonZero _ | .tuple _ _ | .array _ _ | .external _ _ _ _ => by simp [simplifyType, constTy, ConstType]

/-! ### Definitions -/

theorem simplifyFields_unit {checked : Bool} {fs : Ast.Fields} {gs : Fields} (h : simplifyFields checked fs = some gs) :
    UnitEmpty gs := by
  intro hk
  cases fs with
  | named fs tr =>
    simp only [simplifyFields, Option.bind_eq_bind, Option.bind_eq_some_iff, Option.pure_def, Option.some.injEq] at h
    obtain ⟨l, hl, rfl⟩ := h; cases hk
  | unnamed fs tr =>
    simp only [simplifyFields, Option.bind_eq_bind, Option.bind_eq_some_iff, Option.pure_def, Option.some.injEq] at h
    obtain ⟨l, hl, rfl⟩ := h; cases hk
  | unit => simp only [simplifyFields, Option.some.injEq] at h; subst h; rfl

theorem fieldsOk_iff {checked : Bool} {fs : Ast.Fields} {gs : Fields} (h : simplifyFields checked fs = some gs) :
    fieldsOk gs = true ↔ ∀ t, TypeOf fs t → TypeOk t := by
  have ht := Generator.simplifyFields_types h
  rw [fieldsOk, List.all_eq_true]
  constructor
  · intro hall t hto
    have hm : simplifyType t ∈ gs.fields.map (·.ty) := by
      rw [ht]; exact List.mem_map.2 ⟨t, fieldTypes_mem.2 hto, rfl⟩
    obtain ⟨f, hf, he⟩ := List.mem_map.1 hm
    exact (fieldOk_iff gs.kind f t he).1 (hall f hf)
  · intro hall f hf
    have hm : f.ty ∈ (fieldTypes fs).map simplifyType := by
      rw [← ht]; exact List.mem_map.2 ⟨f, hf, rfl⟩
    obtain ⟨t, hto, he⟩ := List.mem_map.1 hm
    exact (fieldOk_iff gs.kind f t he.symm).2 (hall t (fieldTypes_mem.1 hto))

theorem simplifyVariants_fields (checked : Bool) : ∀ (vs : List Ast.Variant) (g : BitVec 32) (ws : List Variant),
    simplifyVariants checked g vs = some ws →
    (∀ w ∈ ws, UnitEmpty w.fields) ∧
    ((ws.all fun v => fieldsOk v.fields) = true ↔ ∀ v ∈ vs, ∀ t, TypeOf v.fields t → TypeOk t)
  | [], _, ws, h => by simp only [simplifyVariants, Option.some.injEq] at h; subst h; simp
  | v :: vs, g, ws, h => by
    simp only [simplifyVariants, Option.bind_eq_bind, Option.bind_eq_some_iff] at h
    obtain ⟨fs, hf, ⟨id, g'⟩, _, rest, hr, hh⟩ := h
    simp only [Option.pure_def, Option.some.injEq] at hh
    subst hh
    have ⟨h1, h2⟩ := simplifyVariants_fields checked vs _ rest hr
    refine ⟨?_, ?_⟩
    · intro w hw
      rcases List.mem_cons.1 hw with rfl | hw
      · exact simplifyFields_unit hf
      · exact h1 w hw
    · rw [List.all_cons, Bool.and_eq_true, fieldsOk_iff hf, h2]
      simp

/-- Fine definitions. -/
def SupportedDef (d : Ast.Definition) : Prop :=
  (∀ fs, FieldsOf d fs → ∀ t, TypeOf fs t → TypeOk t) ∧
  (∀ a, d = .typeAlias a → Nameable a.target) ∧ (∀ c, d = .const c → ConstType c.ty)

theorem header_isSome (name : String) (lines : List String) : (fmt [header, package name lines, imports]).isSome = true := by
  simp [fmt_isSome, header, package, imports, l_isSome, comment_isSome]

theorem bind_pair_isSome {α β : Type} (o : Option α) (f : α → β) : (o.bind fun a => some (f a)).isSome = o.isSome := by
  cases o <;> rfl

mutual
theorem renderDefinition_isSome (std : Parse.Std) (checked : Bool) : ∀ (d : Ast.Definition) (e : Definition),
    simplifyDefinition checked d = some e →
    ((renderDefinition std e).isSome = true ↔ ∀ d', Inside d' d → SupportedDef d')
  | .module c n ds, e, h => by
    simp only [simplifyDefinition, Option.bind_eq_bind, Option.bind_eq_some_iff, Option.pure_def, Option.some.injEq] at h
    obtain ⟨es, he, rfl⟩ := h
    have hm : (renderDefinition std (.module c n es)).isSome = (renderDefinitions std es).isSome := by
      have hh := header_isSome n c
      rw [renderDefinition]
      cases hp : fmt [header, package n c, imports] with
      | none => rw [hp] at hh; cases hh
      | some pre =>
        cases renderDefinitions std es <;> rfl
    rw [hm, renderDefinitions_isSome std checked ds es he]
    constructor
    · intro h d' hi
      cases hi with
      | here => exact ⟨fun fs hf => (by cases hf), fun a ha => (by cases ha), fun c hc => (by cases hc)⟩
      | module hd hi => exact h _ hd d' hi
    · intro h d hd d' hi; exact h d' (.module hd hi)
  | .struct s, e, h => by
    simp only [simplifyDefinition, Option.bind_eq_bind, Option.bind_eq_some_iff, Option.pure_def, Option.some.injEq] at h
    obtain ⟨fs, hf, rfl⟩ := h
    simp only [renderDefinition, Option.bind_eq_bind, Option.pure_def]
    rw [bind_pair_isSome, renderStruct_isSome _ (simplifyFields_unit hf), fieldsOk_iff hf]
    constructor
    · intro h d' hi
      have := inside_not_module hi (by simp); subst this
      exact ⟨fun fs hf => (by cases hf; exact h), fun a ha => (by cases ha), fun c hc => (by cases hc)⟩
    · intro h; exact (h _ .here).1 _ (.struct s)
  | .enum en, e, h => by
    simp only [simplifyDefinition, Option.bind_eq_bind, Option.bind_eq_some_iff, Option.pure_def, Option.some.injEq] at h
    obtain ⟨ws, hw, rfl⟩ := h
    have ⟨h1, h2⟩ := simplifyVariants_fields checked _ _ ws hw
    simp only [renderDefinition, Option.bind_eq_bind, Option.pure_def]
    rw [bind_pair_isSome, renderEnum_isSome _ h1, h2]
    constructor
    · intro h d' hi
      have := inside_not_module hi (by simp); subst this
      exact ⟨fun fs hf => (by cases hf with | variant _ v hv => exact h v hv), fun a ha => (by cases ha),
        fun c hc => (by cases hc)⟩
    · intro h v hv; exact (h _ .here).1 _ (.variant en v hv)
  | .typeAlias a, e, h => by
    simp only [simplifyDefinition, Option.some.injEq] at h
    subst h
    simp only [renderDefinition, Option.bind_eq_bind, Option.pure_def]
    rw [bind_pair_isSome, renderAlias_isSome, defTy_isSome]
    constructor
    · intro h d' hi
      have := inside_not_module hi (by simp); subst this
      exact ⟨fun fs hf => (by cases hf), fun a ha => (by cases ha; exact h), fun c hc => (by cases hc)⟩
    · intro h; exact (h _ .here).2.1 a rfl
  | .const c, e, h => by
    simp only [simplifyDefinition, Option.some.injEq] at h
    subst h
    simp only [renderDefinition, Option.bind_eq_bind, Option.pure_def]
    rw [bind_pair_isSome, renderConst_isSome, constTy_isSome]
    constructor
    · intro h d' hi
      have := inside_not_module hi (by simp); subst this
      exact ⟨fun fs hf => (by cases hf), fun a ha => (by cases ha), fun c hc => (by cases hc; exact h)⟩
    · intro h; exact (h _ .here).2.2 c rfl
  | .import i, e, h => by
    simp only [simplifyDefinition, Option.some.injEq] at h
    subst h
    simp only [renderDefinition, Option.isSome_some, true_iff]
    intro d' hi
    have := inside_not_module hi (by simp); subst this
    exact ⟨fun fs hf => (by cases hf), fun a ha => (by cases ha), fun c hc => (by cases hc)⟩
theorem renderDefinitions_isSome (std : Parse.Std) (checked : Bool) : ∀ (ds : List Ast.Definition) (es : List Definition),
    simplifyDefinitions checked ds = some es →
    ((renderDefinitions std es).isSome = true ↔ ∀ d ∈ ds, ∀ d', Inside d' d → SupportedDef d')
  | [], es, h => by simp only [simplifyDefinitions, Option.some.injEq] at h; subst h; simp [renderDefinitions]
  | d :: ds, es, h => by
    simp only [simplifyDefinitions, Option.bind_eq_bind, Option.bind_eq_some_iff, Option.pure_def, Option.some.injEq] at h
    obtain ⟨e, he, es', hes, rfl⟩ := h
    have hm : (renderDefinitions std (e :: es')).isSome = ((renderDefinition std e).isSome && (renderDefinitions std es').isSome) := by
      rw [renderDefinitions]
      cases renderDefinition std e <;> cases renderDefinitions std es' <;> rfl
    rw [hm, Bool.and_eq_true, renderDefinition_isSome std checked d e he, renderDefinitions_isSome std checked ds es' hes]
    simp
end

theorem renderSchema_isSome {std : Parse.Std} {pkg : String} {checked : Bool} {s : Ast.Schema} {t : Schema}
    (h : simplifySchema checked s = some t) : (renderSchema std pkg t).isSome = true ↔ Mabo.Spec.Go.Supported s := by
  simp only [simplifySchema, Option.bind_eq_bind, Option.bind_eq_some_iff, Option.pure_def, Option.some.injEq] at h
  obtain ⟨es, he, rfl⟩ := h
  have hm : (renderSchema std pkg ⟨s.comment, es⟩).isSome = (renderDefinitions std es).isSome := by
    have hh := header_isSome pkg []
    rw [renderSchema]
    cases hp : fmt [header, package pkg [], imports] with
    | none => rw [hp] at hh; cases hh
    | some pre =>
      cases renderDefinitions std es <;> simp
  rw [hm, renderDefinitions_isSome std checked _ es he]
  constructor
  · intro h
    have hs : ∀ d, Occurs s d → SupportedDef d := fun d hd =>
      have ⟨e, he, hi⟩ := occurs_iff.1 hd
      h e he d hi
    exact ⟨fun d hd => (hs d hd).1, fun a ha => (hs _ ha).2.1 a rfl, fun c hc => (hs _ hc).2.2 c rfl⟩
  · intro h d hd d' hi
    have ho : Occurs s d' := occurs_iff.2 ⟨d, hd, hi⟩
    exact ⟨h.fields d' ho, fun a ha => h.aliases a (ha ▸ ho), fun c hc => h.consts c (hc ▸ ho)⟩

end Mabo.Go
