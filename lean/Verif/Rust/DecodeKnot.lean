import Verif.Rust.DecodeDef
/-!
The trait `Decode` of the generated crate.
-/
namespace Mabo.Rust
open Mabo.Buf Mabo.Codegen
open Mabo.Schema (Prim Ty Val Env FieldKind)

/-! ### The implementations of the runtime crate -/

theorem decodeMany_u8 : ∀ bs : Bytes, decodeMany decU8 bs.length bs = .ok (bs.map UInt8.toBitVec) []
  | [] => rfl
  | b :: bs => by
    rw [List.length_cons, decodeMany, decU8, Res.bind_ok, decodeMany_u8 bs]
    rfl

/-- `Vec<u8>` as a vector. -/
theorem decVec_bytes (r : Bytes) :
    ((Buf.decVec decU8 r).map fun bs => Val.bytes (bs.map UInt8.ofBitVec)) = (decBytes r).map Val.bytes := by
  unfold Buf.decVec decBytes decPrefixed
  cases decUint 64 r with
  | ok n r' =>
    simp only [Res.bind_ok]
    split
    · rfl
    · simp only [decWindow, decodeMany_u8, Res.bind_ok, Res.map_ok, List.map_map]
      congr 2
      induction (r'.take n.toNat) with
      | nil => rfl
      | cons b bs ih => rw [List.map_cons, ih]; rfl
  | _ => rfl

theorem traitDec_ok {o : BytesType} {arity : List String → Option Nat} {ext dext : List String → List Ty → Dec Val}
    (h : ∀ abs args, hasDec o arity (.ext abs args) = true → ext abs args = dext abs args) :
    ∀ t : Ty, hasDec o arity t = true → traitDec ext t = decTy dext false t
  | .prim p, _ => by
    cases p with
    | bytes => funext r; exact decVec_bytes r
    | bytesRef => funext r; exact decVec_bytes r
    | _ => rfl
  | .vec t, ht => by rw [hasDec] at ht; rw [traitDec, decTy, traitDec_ok h t ht]
  | .hashSet t, ht => by
    rw [hasDec, Bool.and_eq_true] at ht
    rw [traitDec, decTy, traitDec_ok h t ht.2]
  | .option t, ht => by
    rw [hasDec] at ht
    rw [traitDec, decTy, traitDec_ok h t ht]
    funext r
    congr 1
  | .array t n, ht => by rw [hasDec] at ht; rw [traitDec, decTy, traitDec_ok h t ht]
  | .hashMap k v, ht => by
    rw [hasDec, Bool.and_eq_true, Bool.and_eq_true] at ht
    rw [traitDec, decTy, traitDec_ok h k ht.1.2, traitDec_ok h v ht.2]
  | .ext abs args, ht => by rw [traitDec, decTy, h abs args ht]
  | .param i, _ => by rw [traitDec, decTy] <;> simp
  | .inst t, ht => by rw [hasDec] at ht; rw [traitDec, decTy, traitDec_ok h t ht]
  | .nonZero t, ht => by simp [hasDec] at ht
  | .tuple ts, ht => by simp [hasDec] at ht

/-! ### Type arguments -/

mutual
theorem hashable_subst {args : List Ty} : ∀ t : Ty, hashable t = true → hashable (t.subst args) = true
  | .prim p, h => h
  | .vec t, h => by rw [hashable] at h; rw [Ty.subst, hashable]; exact hashable_subst t h
  | .option t, h => by rw [hashable] at h; rw [Ty.subst, hashable]; exact hashable_subst t h
  | .array t n, h => by rw [hashable] at h; rw [Ty.subst, hashable]; exact hashable_subst t h
  | .hashMap k v, h => by simp [hashable] at h
  | .hashSet t, h => by simp [hashable] at h
  | .nonZero t, h => by
    cases t with
    | prim p => exact h
    | _ => simp [hashable] at h
  | .tuple ts, h => by rw [hashable] at h; rw [Ty.subst, hashable]; exact hashables_subst ts h
  | .ext abs as, h => by simp [hashable] at h
  | .param i, h => by simp [hashable] at h
  | .inst t, h => by rw [hashable] at h; rw [Ty.subst, hashable]; exact hashable_subst t h
theorem hashables_subst {args : List Ty} : ∀ ts : List Ty, hashables ts = true → hashables (Ty.substList args ts) = true
  | [], _ => rfl
  | t :: ts, h => by
    rw [hashables, Bool.and_eq_true] at h
    rw [Ty.substList, hashables, hashable_subst t h.1, hashables_subst ts h.2]
    rfl
end

theorem hasDecs_get {o : BytesType} {arity : List String → Option Nat} : ∀ {args : List Ty} {i : Nat} {t : Ty},
    hasDecs o arity args = true → args[i]? = some t → hasDec o arity t = true
  | a :: as, 0, t, h, ht => by
    simp only [List.getElem?_cons_zero, Option.some.injEq] at ht
    rw [hasDecs, Bool.and_eq_true] at h
    exact ht ▸ h.1
  | a :: as, i + 1, t, h, ht => by
    rw [hasDecs, Bool.and_eq_true] at h
    exact hasDecs_get h.2 ht
  | [], _, _, _, ht => by simp at ht

mutual
theorem hasDec_subst {o : BytesType} {arity : List String → Option Nat} {args : List Ty} (ha : hasDecs o arity args = true) :
    ∀ t : Ty, hasDec o arity t = true → hasDec o arity (t.subst args) = true
  | .prim p, h => h
  | .vec t, h => by rw [hasDec] at h; rw [Ty.subst, hasDec]; exact hasDec_subst ha t h
  | .option t, h => by rw [hasDec] at h; rw [Ty.subst, hasDec]; exact hasDec_subst ha t h
  | .array t n, h => by rw [hasDec] at h; rw [Ty.subst, hasDec]; exact hasDec_subst ha t h
  | .hashSet t, h => by
    rw [hasDec, Bool.and_eq_true] at h
    rw [Ty.subst, hasDec, hasDec_subst ha t h.2, hashable_subst t h.1]
    rfl
  | .hashMap k v, h => by
    rw [hasDec, Bool.and_eq_true, Bool.and_eq_true] at h
    rw [Ty.subst, hasDec, hasDec_subst ha k h.1.2, hasDec_subst ha v h.2, hashable_subst k h.1.1]
    rfl
  | .nonZero t, h => by simp [hasDec] at h
  | .tuple ts, h => by simp [hasDec] at h
  | .ext abs as, h => by
    rw [hasDec, Bool.and_eq_true, decide_eq_true_eq] at h
    rw [Ty.subst, hasDec, hasDecs_subst ha as h.2, substList_length, h.1]
    simp
  | .param i, h => by
    rw [Ty.subst]
    cases hi : args[i]? with
    | none => exact h
    | some t =>
      simp only [hasDec]
      exact hasDecs_get ha hi
  | .inst t, h => by rw [hasDec] at h; rw [Ty.subst, hasDec]; exact hasDec_subst ha t h
theorem hasDecs_subst {o : BytesType} {arity : List String → Option Nat} {args : List Ty} (ha : hasDecs o arity args = true) :
    ∀ ts : List Ty, hasDecs o arity ts = true → hasDecs o arity (Ty.substList args ts) = true
  | [], _ => rfl
  | t :: ts, h => by
    rw [hasDecs, Bool.and_eq_true] at h
    rw [Ty.substList, hasDecs, hasDec_subst ha t h.1, hasDecs_subst ha ts h.2]
    rfl
end

/-! ### The crate -/

/-- The trait `Decode` of the crate, for any depth of nested calls. -/
theorem world_dec {files : Build.Files} {o : BytesType} (hg : CrateGood files o) : ∀ (n : Nat) (t : Ty),
    hasDec o (arityOf files) t = true → (world files o n).dec t = decTy (decExt (Build.crateEnv files) n) false t
  | 0, t, ht => traitDec_ok (fun _ _ _ => rfl) t ht
  | n + 1, t, ht => by
    refine traitDec_ok (fun abs args hd => ?_) t ht
    rw [hasDec, Bool.and_eq_true, decide_eq_true_eq] at hd
    cases hit : Build.itemAt files abs with
    | none => simp [arityOf, hit] at hd
    | some it =>
      obtain ⟨m, h1, h2⟩ := runDec_ok hg hit
      have he : Build.crateEnv files abs = some (Build.lowerItem (Build.resolvePath files abs.dropLast) it) := by
        simp only [Build.crateEnv, hit, Option.map_some]
      simp only [h1]
      rw [h2 (decExt (Build.crateEnv files) n) args _ (fun a b => decExt_local _ _ _ _)
        fun t ht => world_dec hg n (t.subst args) (hasDec_subst hd.2 t ht)]
      simp only [decExt, he]

end Mabo.Rust
