import Verif.Spec.Meta
import Verif.SizeLemmas
/-! Lemmas about metadata. -/
namespace Mabo.Meta
open Mabo.Schema Mabo.Buf Mabo.Varint Mabo.Codegen Mabo.Spec

theorem maxId_ge : ∀ (ids : List (BitVec 32)), ∀ id ∈ ids, id.toNat ≤ (maxId ids).toNat
  | [], _, h => by cases h
  | x :: xs, id, h => by
    have ih := maxId_ge xs
    rw [maxId]
    rcases List.mem_cons.1 h with rfl | h
    · split <;> omega
    · have := ih id h; split <;> omega

theorem maxId_mem : ∀ (ids : List (BitVec 32)), ids ≠ [] → maxId ids ∈ ids
  | [], h => absurd rfl h
  | x :: xs, _ => by
    rw [maxId]
    split
    · simp
    · rename_i hlt
      cases xs with
      | nil =>
        have : x.toNat = 0 := by simp only [maxId] at hlt; simpa using hlt
        have : x = 0 := BitVec.eq_of_toNat_eq (by simpa using this)
        simp [maxId, this]
      | cons y ys => exact List.mem_cons_of_mem _ (maxId_mem (y :: ys) (by simp))

theorem varintSize_le_iff {n : Nat} (h : n < 2 ^ 32) (k : Nat) : varintSize n ≤ k + 1 ↔ n < 128 ^ (k + 1) := by
  unfold varintSize
  rw [sizeU_le_iff, BitVec.toNat_ofNat, Nat.mod_eq_of_lt h]

theorem varintSize_eq {n : Nat} (h : n < 2 ^ 32) : varintSize n = sizeLen n := by
  have h1 : 0 < varintSize n := sizeU_pos _
  have h2 := sizeLen_pos n
  have a := (varintSize_le_iff h (sizeLen n - 1)).2 ((sizeLen_le_iff (by omega) _).1 (by omega))
  have b := (sizeLen_le_iff (n := n) (by omega) (varintSize n - 1)).2 ((varintSize_le_iff h _).1 (by omega))
  omega

/-- Bounds as used in the recursion: unknown sizes are unconstrained. -/
def Bounds (w : Option WireSize) (n : Nat) : Prop := minOf w ≤ n ∧ ∀ m, maxOf w = some m → n ≤ m

theorem bounds_none (n : Nat) : Bounds none n := ⟨Nat.zero_le _, fun _ h => by cases h⟩

theorem sizeRep_pos (p : Rep) (hw : Rep.wide p) (v : Val) (h : p.has v = true) : 1 ≤ sizeRep p v := by
  rw [sizeRep_eq p hw v h]; exact encRep_pos p hw v h

theorem prim_bounds (p : Prim) (v : Val) (h : p.rep.has v = true) : Bounds (some (wirePrim p)) (sizeRep p.rep v) := by
  have hp := sizeRep_pos p.rep (by cases p <;> simp [Prim.rep, Rep.wide]) v h
  have hu : ∀ (w : Nat) (x : BitVec w), 8 ≤ w → sizeU x ≤ maxSize w := fun w x hw => by
    rw [sizeU_eq_length hw]; exact encodeU_length_le hw x
  cases p <;> cases v <;> simp only [Prim.rep, Rep.has, Bool.false_eq_true] at h <;>
    simp only [Prim.rep, sizeRep] at hp <;>
    refine ⟨?_, fun m hm => ?_⟩ <;> simp only [minOf, maxOf, wirePrim, Prim.rep, sizeRep, Option.some.injEq,
      reduceCtorEq] at * <;>
    first
      | omega
      | (subst hm
         first
          | exact hu 16 _ (by omega)
          | exact hu 32 _ (by omega)
          | exact hu 64 _ (by omega)
          | exact hu 128 _ (by omega)
          | omega)

theorem prim_wide (p : Prim) : Rep.wide p.rep := by cases p <;> simp [Prim.rep, Rep.wide]

/-- Both the computed and the real size of all values of `t` are within bounds. -/
def Sound (env : Env) (t : Ty) : Prop :=
  ∀ v, wt env t v = true → size env t v < 2 ^ 64 →
    Bounds (wireSize t) (size env t v) ∧ Bounds (wireSize t) (enc env false t v).length

theorem sound_unknown {env : Env} {t : Ty} (h : wireSize t = none) : Sound env t := by
  intro v _ _; rw [h]; exact ⟨bounds_none _, bounds_none _⟩

theorem list_bounds {env : Env} {t : Ty} (ht : Sound env t) : ∀ (xs : List Val), wtList env t xs = true →
    sizeList env t xs < 2 ^ 64 →
    (minOf (wireSize t) * xs.length ≤ sizeList env t xs ∧ minOf (wireSize t) * xs.length ≤ (encList env t xs).length) ∧
    ∀ m, maxOf (wireSize t) = some m →
      sizeList env t xs ≤ m * xs.length ∧ (encList env t xs).length ≤ m * xs.length
  | [], _, _ => by simp [sizeList, encList]
  | v :: vs, hw, hs => by
    rw [wtList, Bool.and_eq_true] at hw
    rw [sizeList] at hs
    have ⟨⟨a1, a2⟩, a3⟩ := list_bounds ht vs hw.2 (by omega)
    have ⟨b1, b2⟩ := ht v hw.1 (by omega)
    simp only [sizeList, encList, List.length_append, List.length_cons, Nat.mul_add, Nat.mul_one]
    have h1 := b1.1
    have h2 := b2.1
    refine ⟨⟨by omega, by omega⟩, fun m hm => ?_⟩
    have := a3 m hm
    have h3 := b1.2 m hm
    have h4 := b2.2 m hm
    exact ⟨by omega, by omega⟩

theorem sound_array {env : Env} {t : Ty} {n : Nat} (ht : Sound env t) (hn : n < 2 ^ 32)
    (hv : SameVarint n (wireSize t)) : Sound env (.array t n) := by
  intro v hw hs
  rw [wt.eq_def] at hw
  simp only [Ty.strip, Ty.nzOk, Ty.isNz, Bool.not_false, Bool.true_or, Bool.true_and, Bool.and_true] at hw
  cases v with
  | list xs =>
    simp only [Bool.and_eq_true, decide_eq_true_eq] at hw
    obtain ⟨hlen, hw⟩ := hw
    have hsize : size env (.array t n) (.list xs) = sizeLen xs.length + sizeList env t xs := by
      rw [size.eq_def]; simp only [Ty.strip]
    have henc : enc env false (.array t n) (.list xs) = encLen (sizeList env t xs) ++ encList env t xs := by
      rw [enc.eq_def]; simp only [Ty.strip]
    rw [hsize] at hs
    have ⟨⟨a1, a2⟩, a3⟩ := list_bounds ht xs hw (by omega)
    rw [hsize, henc, List.length_append, encLen_length, wireSize, ← varintSize_eq (by omega), hlen]
    rw [hlen] at a1 a2 a3
    have hlo : varintSize n ≤ sizeLen (sizeList env t xs) := by
      rw [varintSize_eq hn]
      rcases hv.1 with h | h
      · exact sizeLen_mono (Nat.le_trans (Nat.le_mul_of_pos_left n h) a1) (by omega)
      · have := (sizeLen_le_iff (n := n) (by omega) 0).2 (by simpa using h)
        have := sizeLen_pos (sizeList env t xs)
        omega
    have hhi : ∀ m, maxOf (wireSize t) = some m → sizeLen (sizeList env t xs) ≤ varintSize n := by
      intro m hm
      have hp : 0 < varintSize n := sizeU_pos _
      have h1 := (varintSize_le_iff hn (varintSize n - 1)).1 (by omega)
      have h2 := hv.2 m hm _ h1
      have h3 := (a3 m hm).1
      have := (sizeLen_le_iff (n := sizeList env t xs) (by omega) (varintSize n - 1)).2 (by omega)
      omega
    refine ⟨⟨?_, fun m hm => ?_⟩, ⟨?_, fun m hm => ?_⟩⟩
    · show varintSize n + minOf (wireSize t) * n ≤ _
      omega
    · simp only [maxOf, Option.map_eq_some_iff] at hm
      obtain ⟨m', hm', rfl⟩ := hm
      have := (a3 m' hm').1
      omega
    · show varintSize n + minOf (wireSize t) * n ≤ _
      omega
    · simp only [maxOf, Option.map_eq_some_iff] at hm
      obtain ⟨m', hm', rfl⟩ := hm
      have := (a3 m' hm').2
      have := hhi m' hm'
      omega
  | _ => simp at hw

theorem sound_prim {env : Env} (p : Prim) : Sound env (.prim p) := by
  intro v hw _
  rw [wt.eq_def] at hw
  simp only [Ty.strip, Ty.nzOk, Ty.isNz, Bool.not_false, Bool.true_or, Bool.true_and] at hw
  have hs : size env (.prim p) v = sizeRep p.rep v := by rw [size.eq_def]; simp only [Ty.strip]
  have he : enc env false (.prim p) v = encRep p.rep v := by rw [enc.eq_def]; simp only [Ty.strip]
  rw [hs, he, ← sizeRep_eq _ (prim_wide p) v hw, wireSize]
  exact ⟨prim_bounds p v hw, prim_bounds p v hw⟩

theorem bounds_one {n : Nat} (h : 1 ≤ n) : Bounds (some ⟨1, none⟩) n := ⟨h, fun _ h => by cases h⟩

theorem sound_vec {env : Env} (t : Ty) : Sound env (.vec t) := by
  intro v hw _
  rw [wt.eq_def] at hw
  cases v with
  | list xs =>
    rw [size.eq_def, enc.eq_def, wireSize]; simp only [Ty.strip, List.length_append, encLen_length]
    have := sizeLen_pos xs.length
    have := sizeLen_pos (sizeList env t xs)
    exact ⟨bounds_one (by omega), bounds_one (by omega)⟩
  | _ => simp [Ty.strip] at hw

theorem sound_hashSet {env : Env} (t : Ty) : Sound env (.hashSet t) := by
  intro v hw _
  rw [wt.eq_def] at hw
  cases v with
  | list xs =>
    rw [size.eq_def, enc.eq_def, wireSize]; simp only [Ty.strip, List.length_append, encLen_length]
    have := sizeLen_pos xs.length
    have := sizeLen_pos (sizeList env t xs)
    exact ⟨bounds_one (by omega), bounds_one (by omega)⟩
  | _ => simp [Ty.strip] at hw

theorem sound_hashMap {env : Env} (k t : Ty) : Sound env (.hashMap k t) := by
  intro v hw _
  rw [wt.eq_def] at hw
  cases v with
  | list xs =>
    rw [size.eq_def, enc.eq_def, wireSize]; simp only [Ty.strip, List.length_append, encLen_length]
    have := sizeLen_pos xs.length
    have := sizeLen_pos (sizeEntries env k t xs)
    exact ⟨bounds_one (by omega), bounds_one (by omega)⟩
  | _ => simp [Ty.strip] at hw

theorem sound_option {env : Env} {t : Ty} (ht : Sound env t) : Sound env (.option t) := by
  intro v hw hs
  rw [wt.eq_def] at hw
  cases v with
  | none =>
    rw [size.eq_def, enc.eq_def, wireSize]; simp only [Ty.strip, List.length_cons, List.length_nil]
    refine ⟨⟨Nat.zero_le _, fun m hm => ?_⟩, ⟨Nat.zero_le _, fun m hm => ?_⟩⟩ <;>
    · simp only [maxOf, Option.map_eq_some_iff] at hm
      obtain ⟨m', _, rfl⟩ := hm
      omega
  | some v =>
    simp only [Ty.strip, Ty.nzOk, Ty.isNz, Bool.not_false, Bool.true_or, Bool.true_and] at hw
    rw [size.eq_def] at hs
    simp only [Ty.strip] at hs
    have ⟨h1, h2⟩ := ht v hw (by omega)
    rw [size.eq_def, enc.eq_def, wireSize]; simp only [Ty.strip, List.length_cons]
    refine ⟨⟨Nat.zero_le _, fun m hm => ?_⟩, ⟨Nat.zero_le _, fun m hm => ?_⟩⟩ <;>
    · simp only [maxOf, Option.map_eq_some_iff] at hm
      obtain ⟨m', hm', rfl⟩ := hm
      have := h1.2 m' hm'
      have := h2.2 m' hm'
      omega
  | _ => simp [Ty.strip] at hw

theorem sound_nonZero {env : Env} {t : Ty} (ht : Sound env t) : Sound env (.nonZero t) := by
  intro v hw hs
  have key : t.strip = t → wt env t v = true → Bounds (wireSize (.nonZero t)) (size env (.nonZero t) v) ∧
      Bounds (wireSize (.nonZero t)) (enc env false (.nonZero t) v).length := by
    intro hstrip hw
    have e1 : size env (.nonZero t) v = size env t v := by
      rw [size.eq_def, size.eq_def env t]; simp only [Ty.strip, hstrip]
    have hnt : ∀ ts, t ≠ .tuple ts ∨ True := fun _ => .inr trivial
    have e2 : enc env false (.nonZero t) v = enc env false t v := by
      rw [enc.eq_def, enc.eq_def env false t]; simp only [Ty.strip, hstrip]
    rw [e1] at hs
    have ⟨h1, h2⟩ := ht v hw hs
    rw [e1, e2, wireSize]
    refine ⟨⟨Nat.zero_le _, fun m hm => ?_⟩, ⟨Nat.zero_le _, fun m hm => ?_⟩⟩ <;>
    · simp only [maxOf, Option.map_eq_some_iff] at hm
      obtain ⟨m', hm', rfl⟩ := hm
      have := h1.2 m' hm'
      have := h2.2 m' hm'
      omega
  have hnz : t.nzArg = true := by
    rw [wt.eq_def] at hw; simp only [Bool.and_eq_true] at hw; exact hw.1.1
  have hw' : t.strip = t → t.nzOk = true → t.isNz = false → wt env t v = true := by
    intro h1 h2 h3
    rw [wt.eq_def] at hw ⊢
    simp only [Ty.strip, Bool.and_eq_true] at hw
    rw [h1, h2, h3]
    simp only [Bool.not_false, Bool.true_or, Bool.true_and]
    exact hw.2
  cases t with
  | prim p => exact key rfl (hw' rfl rfl rfl)
  | vec t => exact key rfl (hw' rfl rfl rfl)
  | hashMap k t => exact key rfl (hw' rfl rfl rfl)
  | hashSet t => exact key rfl (hw' rfl rfl rfl)
  | _ => simp [Ty.nzArg] at hnz

/-- Bounds of the elements of a tuple. -/
def SoundTuple (env : Env) (ts : List Ty) : Prop :=
  ∀ xs, wtTuple env ts xs = true → sizeTuple env ts xs < 2 ^ 64 →
    (minSum ts ≤ sizeTuple env ts xs ∧ minSum ts ≤ (encTuple env ts xs).length) ∧
    ∀ m, maxSum ts = some m → sizeTuple env ts xs ≤ m ∧ (encTuple env ts xs).length ≤ m

theorem sound_tuple {env : Env} {ts : List Ty} (ht : SoundTuple env ts) : Sound env (.tuple ts) := by
  intro v hw hs
  rw [wt.eq_def] at hw
  cases v with
  | list xs =>
    simp only [Ty.strip, Bool.and_eq_true] at hw
    have e1 : size env (.tuple ts) (.list xs) = sizeTuple env ts xs := by rw [size.eq_def]; simp only [Ty.strip]
    have e2 : enc env false (.tuple ts) (.list xs) = encTuple env ts xs := by rw [enc.eq_def]; simp only [Ty.strip]
    rw [e1] at hs
    have ⟨⟨a, b⟩, c⟩ := ht xs hw.2.2 hs
    rw [e1, e2, wireSize]
    exact ⟨⟨a, fun m hm => (c m hm).1⟩, ⟨b, fun m hm => (c m hm).2⟩⟩
  | _ => simp [Ty.strip] at hw

theorem soundTuple_cons {env : Env} {t : Ty} {ts : List Ty} (h1 : Sound env t) (h2 : SoundTuple env ts) :
    SoundTuple env (t :: ts) := by
  intro xs hw hs
  cases xs with
  | nil => simp [wtTuple] at hw
  | cons x xs =>
    rw [wtTuple, Bool.and_eq_true] at hw
    rw [sizeTuple] at hs
    have ⟨⟨a1, a2⟩, a3⟩ := h2 xs hw.2 (by omega)
    have ⟨b1, b2⟩ := h1 x hw.1 (by omega)
    simp only [sizeTuple, Codegen.encTuple, List.length_append, minSum, maxSum]
    have c1 := b1.1
    have c2 := b2.1
    refine ⟨⟨by omega, by omega⟩, fun m hm => ?_⟩
    cases hm1 : maxOf (wireSize t) with
    | none => rw [hm1] at hm; cases hm
    | some p =>
      cases hm2 : maxSum ts with
      | none => rw [hm1, hm2] at hm; cases hm
      | some q =>
        rw [hm1, hm2] at hm
        injection hm with hm
        have := a3 q hm2
        have := b1.2 p hm1
        have := b2.2 p hm1
        exact ⟨by omega, by omega⟩

mutual
theorem sound {env : Env} : ∀ t : Ty, ArraysOk t → Sound env t
  | .prim p, _ => sound_prim p
  | .vec t, _ => sound_vec t
  | .hashMap k t, _ => sound_hashMap k t
  | .hashSet t, _ => sound_hashSet t
  | .option t, h => sound_option (sound t (by simpa only [ArraysOk] using h))
  | .nonZero t, h => sound_nonZero (sound t (by simpa only [ArraysOk] using h))
  | .tuple ts, h => sound_tuple (soundTuple ts (by simpa only [ArraysOk] using h))
  | .array t n, h => by
    rw [ArraysOk] at h
    exact sound_array (sound t h.2.2) h.1 h.2.1
  | .ext _ _, _ => sound_unknown rfl
  | .param _, _ => sound_unknown rfl
  | .inst _, _ => sound_unknown rfl
theorem soundTuple {env : Env} : ∀ ts : List Ty, ArraysOks ts → SoundTuple env ts
  | [], _ => by
    intro xs hw _
    cases xs <;> simp [wtTuple] at hw
    simp [sizeTuple, Codegen.encTuple, minSum, maxSum]
  | t :: ts, h => by
    rw [ArraysOks] at h
    exact soundTuple_cons (sound t h.1) (soundTuple ts h.2)
end

end Mabo.Meta
