import Verif.Chunked
import Verif.CodegenLemmas
import Verif.Spec.Chunked
/-! Simulation of the contiguous decoders by the chunked ones. -/
namespace Mabo.Chunked
open Mabo.Buf Mabo.Varint Mabo.Schema Mabo.Codegen Mabo.Spec

theorem clean_tail {c : Bytes} {cs : Chunks} (h : CleanBoundaries (c :: cs)) : CleanBoundaries cs := by
  cases cs with
  | nil => trivial
  | cons d ds => exact h.2

theorem clean_cons {c : Bytes} {cs : Chunks} (hc : ∀ b, c.getLast? = some b → b.toNat < 128)
    (h : CleanBoundaries cs) : CleanBoundaries (c :: cs) := by
  cases cs with
  | nil => trivial
  | cons d ds => exact ⟨hc, h⟩

theorem clean_head {c : Bytes} {cs : Chunks} (hn : cs ≠ []) (h : CleanBoundaries (c :: cs)) :
    ∀ b, c.getLast? = some b → b.toNat < 128 := by
  cases cs with
  | nil => exact absurd rfl hn
  | cons d ds => exact h.1

theorem flatten_advance (n : Nat) (c : Chunks) : (advance n c).flatten = c.flatten.drop n := by
  induction c generalizing n with
  | nil => simp [advance]
  | cons c cs ih =>
    unfold advance
    split
    · rename_i h
      simp [List.drop_append, Nat.sub_eq_zero_of_le (Nat.le_of_lt h)]
    · rename_i h
      rw [ih]
      simp [List.drop_append, List.drop_eq_nil_of_le (Nat.le_of_not_lt h)]

theorem flatten_window (n : Nat) (c : Chunks) : (window n c).flatten = c.flatten.take n := by
  induction c generalizing n with
  | nil => simp [window]
  | cons c cs ih =>
    unfold window
    split
    · rename_i h
      simp [List.take_append, Nat.sub_eq_zero_of_le h]
    · rename_i h
      simp only [List.flatten_cons, ih, List.take_append]
      rw [List.take_of_length_le (Nat.le_of_lt (Nat.lt_of_not_le h))]

theorem clean_advance (n : Nat) {c : Chunks} (h : CleanBoundaries c) : CleanBoundaries (advance n c) := by
  induction c generalizing n with
  | nil => simpa [advance] using h
  | cons c cs ih =>
    unfold advance
    split
    · rename_i hn
      by_cases hcs : cs = []
      · subst hcs; trivial
      · refine clean_cons ?_ (clean_tail h)
        intro b hb
        refine clean_head hcs h b ?_
        rw [List.getLast?_drop] at hb
        rw [if_neg (by omega)] at hb
        exact hb
    · exact ih _ (clean_tail h)

theorem clean_window (n : Nat) {c : Chunks} (h : CleanBoundaries c) : CleanBoundaries (window n c) := by
  induction c generalizing n with
  | nil => trivial
  | cons c cs ih =>
    unfold window
    split
    · trivial
    · by_cases hcs : cs = []
      · subst hcs; simp [window, CleanBoundaries]
      · exact clean_cons (clean_head hcs h) (ih _ (clean_tail h))

/-- `chunk` is a prefix of the contents, non-empty unless nothing remains. -/
theorem chunk_prefix (c : Chunks) : ∃ s, c.flatten = chunk c ++ s := by
  induction c with
  | nil => exact ⟨[], rfl⟩
  | cons c cs ih =>
    cases c with
    | nil => simpa [chunk] using ih
    | cons b bs => exact ⟨cs.flatten, by simp [chunk]⟩

theorem chunk_eq_nil {c : Chunks} (h : chunk c = []) : c.flatten = [] := by
  induction c with
  | nil => rfl
  | cons c cs ih =>
    cases c with
    | nil => simpa [chunk] using ih (by simpa [chunk] using h)
    | cons b bs => simp [chunk] at h

/-- With clean boundaries, either the current piece is everything, or it ends below `0x80`. -/
theorem chunk_clean {c : Chunks} (h : CleanBoundaries c) :
    c.flatten = chunk c ∨ ∃ b, (chunk c).getLast? = some b ∧ b.toNat < 128 := by
  induction c with
  | nil => exact .inl rfl
  | cons c cs ih =>
    cases c with
    | nil => simpa [chunk] using ih (clean_tail h)
    | cons b bs =>
      by_cases hcs : cs = []
      · subst hcs; exact .inl (by simp [chunk])
      · obtain ⟨l, hl⟩ : ∃ l, (b :: bs).getLast? = some l := ⟨_, List.getLast?_eq_some_getLast (by simp)⟩
        exact .inr ⟨l, by simpa [chunk] using hl, clean_head hcs h l hl⟩

theorem decodeU_none {w : Nat} {bs : Bytes} : decodeU w bs = none ↔ ∀ b ∈ bs.take (maxSize w), 128 ≤ b.toNat := by
  rw [decodeU_spec, Option.map_eq_none_iff, List.findIdx?_eq_none_iff]
  simp

theorem decodeU_append {w : Nat} {bs : Bytes} {v : BitVec w} {n : Nat} (h : decodeU w bs = some (v, n)) (s : Bytes) :
    decodeU w (bs ++ s) = some (v, n) := by
  have h1 := (decodeU_local h).2.2 (bs.drop n ++ s)
  rwa [← List.append_assoc, List.take_append_drop] at h1

theorem decodeU_chunk {w : Nat} {c : Chunks} (h : CleanBoundaries c) : decodeU w (chunk c) = decodeU w c.flatten := by
  obtain ⟨s, hs⟩ := chunk_prefix c
  rcases chunk_clean h with he | ⟨b, hb, hlt⟩
  · rw [he]
  · cases hd : decodeU w (chunk c) with
    | some x => rw [hs, decodeU_append hd]
    | none =>
      symm
      rw [decodeU_none] at hd ⊢
      rw [hs, List.take_append]
      obtain ⟨ys, hys⟩ := List.getLast?_eq_some_iff.1 hb
      by_cases hle : (chunk c).length ≤ maxSize w
      · rw [List.take_of_length_le hle] at hd
        have := hd b (by rw [hys]; simp)
        omega
      · rw [Nat.sub_eq_zero_of_le (by omega)]
        simpa using hd

/-! ### The simulation relation -/

/-- `c` is the outcome on a chunked buffer and `r` on the same bytes in one piece. With `g = true` the outcomes are
the same and the rest has clean boundaries; with `g = false` the chunked one may also be a varint error. -/
inductive Sim (g : Bool) {α : Type} : CRes α → Res α → Prop where
  | ok (v : α) (c : Chunks) (h : g = true → CleanBoundaries c) : Sim g (.ok v c) (.ok v c.flatten)
  | err (e : Error) : Sim g (.err e) (.err e)
  | panic : Sim g .panic .panic
  | hang : Sim g .hang .hang
  | split (h : g = false) (r : Res α) : Sim g (.err .decodeInt) r

/-- Decoders that simulate each other. -/
def SimD (g : Bool) {α : Type} (d' : CDec α) (d : Dec α) : Prop :=
  ∀ c, (g = true → CleanBoundaries c) → Sim g (d' c) (d c.flatten)

variable {g : Bool} {α β : Type}

theorem Sim.bind {x : CRes α} {y : Res α} {k' : α → Chunks → CRes β} {k : α → Bytes → Res β} (h : Sim g x y)
    (hk : ∀ v, SimD g (k' v) (k v)) : Sim g (x.bind k') (y.bind k) := by
  cases h with
  | ok v c hc => exact hk v c hc
  | err e => exact .err e
  | panic => exact .panic
  | hang => exact .hang
  | split h r => exact .split h _

theorem Sim.map {x : CRes α} {y : Res α} (f : α → β) (h : Sim g x y) : Sim g (x.map f) (y.map f) :=
  h.bind fun v c hc => .ok (f v) c hc

theorem SimD.map {d' : CDec α} {d : Dec α} (f : α → β) (h : SimD g d' d) :
    SimD g (fun r => (d' r).map f) (fun r => (d r).map f) := fun c hc => (h c hc).map f

theorem SimD.bind {d' : CDec α} {d : Dec α} {k' : α → CDec β} {k : α → Dec β} (h : SimD g d' d)
    (hk : ∀ v, SimD g (k' v) (k v)) : SimD g (fun r => (d' r).bind k') (fun r => (d r).bind k) :=
  fun c hc => (h c hc).bind hk

theorem SimD.ok (v : α) : SimD g (fun c => .ok v c) (fun r => .ok v r) := fun c hc => .ok v c hc
theorem SimD.panic : SimD g (fun _ => (.panic : CRes α)) (fun _ => .panic) := fun _ _ => .panic
theorem SimD.hang : SimD g (fun _ => (.hang : CRes α)) (fun _ => .hang) := fun _ _ => .hang
theorem SimD.err (e : Error) : SimD g (fun _ => (.err e : CRes α)) (fun _ => .err e) := fun _ _ => .err e

/-- An `ok` whose remainder is given up to flattening. -/
theorem Sim.ok' {v : α} {c : Chunks} {r : Bytes} (hr : c.flatten = r) (h : g = true → CleanBoundaries c) :
    Sim g (.ok v c) (.ok v r) := hr ▸ .ok v c h

theorem decUint_sim (w : Nat) : SimD g (decUint w) (Buf.decUint w) := by
  intro c hc
  unfold decUint Buf.decUint
  cases g with
  | true =>
    rw [decodeU_chunk (hc rfl)]
    cases h : decodeU w c.flatten with
    | none => exact .err _
    | some x => exact .ok' (flatten_advance _ _) fun _ => clean_advance _ (hc rfl)
  | false =>
    cases h : decodeU w (chunk c) with
    | none => exact .split rfl _
    | some x =>
      obtain ⟨s, hs⟩ := chunk_prefix c
      rw [hs, decodeU_append h, ← hs]
      exact .ok' (flatten_advance _ _) fun h => by cases h

theorem decSint_eq' (w : Nat) (c : Chunks) : decSint w c = (decUint w c).map zigzagDecode := by
  unfold decSint decUint decodeI
  cases decodeU w (chunk c) <;> rfl

theorem decSint_sim (w : Nat) : SimD g (decSint w) (Buf.decSint w) := by
  intro c hc
  rw [decSint_eq', decSint_eq]
  exact (decUint_sim w c hc).map _

theorem chunk_cons {c : Chunks} {b : UInt8} {bs : Bytes} (h : chunk c = b :: bs) :
    c.flatten = b :: (advance 1 c).flatten := by
  obtain ⟨s, hs⟩ := chunk_prefix c
  rw [flatten_advance, hs, h]
  simp

theorem decU8_sim : SimD g decU8 Buf.decU8 := by
  intro c hc
  unfold decU8
  cases h : chunk c with
  | nil => rw [chunk_eq_nil h]; exact .err _
  | cons b bs =>
    rw [chunk_cons h]
    exact .ok _ _ fun hg => clean_advance _ (hc hg)

theorem decBool_sim : SimD g decBool Buf.decBool := by
  intro c hc
  unfold decBool
  cases h : chunk c with
  | nil => rw [chunk_eq_nil h]; exact .err _
  | cons b bs =>
    rw [chunk_cons h]
    exact .ok _ _ fun hg => clean_advance _ (hc hg)

theorem decF32_sim : SimD g decF32 Buf.decF32 := by
  intro c hc
  unfold decF32 Buf.decF32 remaining gather
  rw [flatten_window]
  split
  · exact .err _
  · exact .ok' (flatten_advance _ _) fun hg => clean_advance _ (hc hg)

theorem decF64_sim : SimD g decF64 Buf.decF64 := by
  intro c hc
  unfold decF64 Buf.decF64 remaining gather
  rw [flatten_window]
  split
  · exact .err _
  · exact .ok' (flatten_advance _ _) fun hg => clean_advance _ (hc hg)

/-- Window continuations that simulate each other. -/
def SimK (g : Bool) {β : Type} (k' : Chunks → Chunks → CRes β) (k : Bytes → Bytes → Res β) : Prop :=
  ∀ b r, (g = true → CleanBoundaries b) → (g = true → CleanBoundaries r) → Sim g (k' b r) (k b.flatten r.flatten)

theorem decPrefixed_sim {k' : Chunks → Chunks → CRes β} {k : Bytes → Bytes → Res β} (hk : SimK g k' k) :
    SimD g (decPrefixed k') (Buf.decPrefixed k) := by
  intro c hc
  refine (decUint_sim 64 c hc).bind ?_
  intro len c hc
  unfold remaining
  simp only []
  split
  · exact .err _
  · have := hk (window len.toNat c) (advance len.toNat c) (fun hg => clean_window _ (hc hg))
      (fun hg => clean_advance _ (hc hg))
    rwa [flatten_window, flatten_advance] at this

theorem decPrefixedNz_sim {k' : Chunks → Chunks → CRes β} {k : Bytes → Bytes → Res β} (hk : SimK g k' k) :
    SimD g (decPrefixedNz k') (Buf.decPrefixedNz k) := by
  intro c hc
  refine (decUint_sim 64 c hc).bind ?_
  intro len c hc
  unfold remaining
  simp only []
  split
  · exact .err _
  · split
    · exact .err _
    · have := hk (window len.toNat c) (advance len.toNat c) (fun hg => clean_window _ (hc hg))
        (fun hg => clean_advance _ (hc hg))
      rwa [flatten_window, flatten_advance] at this

theorem decBytes_sim : SimD g decBytes Buf.decBytes :=
  decPrefixed_sim fun b r _ hr => .ok b.flatten r hr

theorem toStr_sim (bs : Bytes) : SimD g (toStr bs) (Buf.toStr bs) := by
  intro c hc
  unfold toStr Buf.toStr
  cases fromUtf8 bs with
  | none => exact .err _
  | some s => exact .ok s c hc

theorem decString_sim : SimD g decString Buf.decString := decBytes_sim.bind toStr_sim

theorem decodeMany_sim {d' : CDec α} {d : Dec α} (h : SimD g d' d) (n : Nat) :
    SimD g (decodeMany d' n) (Buf.decodeMany d n) := by
  induction n with
  | zero =>
    intro c hc
    unfold decodeMany remaining
    cases hf : c.flatten with
    | nil => simpa [Buf.decodeMany] using Sim.ok' (g := g) (v := ([] : List α)) (c := []) rfl (fun _ => trivial)
    | cons b bs => simpa [Buf.decodeMany] using Sim.hang
  | succ n ih =>
    intro c hc
    unfold decodeMany remaining
    cases hf : c.flatten with
    | nil => simpa [Buf.decodeMany] using Sim.ok' (g := g) (v := ([] : List α)) (c := []) rfl (fun _ => trivial)
    | cons b bs =>
      simp only [List.length_cons, Nat.add_one_ne_zero, if_false, Buf.decodeMany]
      rw [← hf]
      exact (h c hc).bind fun v c hc => (ih c hc).map _

theorem decWindow_sim {d' : CDec α} {d : Dec α} (h : SimD g d' d) : SimK g (decWindow d') (Buf.decWindow d) := by
  intro b r hb hr
  exact (decodeMany_sim h _ b hb).bind fun v c hc => .ok v r hr

theorem decVec_sim {d' : CDec α} {d : Dec α} (h : SimD g d' d) : SimD g (decVec d') (Buf.decVec d) :=
  decPrefixed_sim (decWindow_sim h)

theorem decEntry_sim {k' : CDec α} {k : Dec α} {v' : CDec β} {v : Dec β} (hk : SimD g k' k) (hv : SimD g v' v) :
    SimD g (decEntry k' v') (Buf.decEntry k v) :=
  hk.bind fun _ => hv.bind fun _ c hc => .ok _ c hc

theorem decHashMap_sim [DecidableEq α] {k' : CDec α} {k : Dec α} {v' : CDec β} {v : Dec β} (hk : SimD g k' k)
    (hv : SimD g v' v) : SimD g (decHashMap k' v') (Buf.decHashMap k v) :=
  (decPrefixed_sim (decWindow_sim (decEntry_sim hk hv))).map _

theorem decHashSet_sim [DecidableEq α] {d' : CDec α} {d : Dec α} (h : SimD g d' d) :
    SimD g (decHashSet d') (Buf.decHashSet d) :=
  (decPrefixed_sim (decWindow_sim h)).map _

theorem decOption_sim {d' : CDec α} {d : Dec α} (h : SimD g d' d) : SimD g (decOption d') (Buf.decOption d) := by
  refine decU8_sim.bind ?_
  intro b c hc
  simp only []
  split
  · exact (h c hc).map _
  · exact .ok _ c hc

theorem decodeUpTo_sim {d' : CDec α} {d : Dec α} (h : SimD g d' d) (n : Nat) :
    SimD g (decodeUpTo d' n) (Buf.decodeUpTo d n) := by
  induction n with
  | zero => intro c hc; simpa [decodeUpTo, Buf.decodeUpTo] using Sim.ok _ c hc
  | succ n ih =>
    intro c hc
    unfold decodeUpTo remaining
    cases hf : c.flatten with
    | nil => simpa [Buf.decodeUpTo] using Sim.ok' (g := g) (v := ([] : List α)) (c := []) rfl (fun _ => trivial)
    | cons b bs =>
      simp only [List.length_cons, Nat.add_one_ne_zero, if_false, Buf.decodeUpTo]
      rw [← hf]
      exact (h c hc).bind fun v c hc => (ih c hc).map _

theorem decArray_sim {d' : CDec α} {d : Dec α} (n : Nat) (h : SimD g d' d) : SimD g (decArray n d') (Buf.decArray n d) := by
  refine decPrefixed_sim ?_
  intro b r hb hr
  refine (decodeUpTo_sim h n b hb).bind ?_
  intro v c hc
  simp only []
  split
  · exact .ok v r hr
  · exact .panic

theorem decNonZeroInt_sim {w : Nat} {d' : CDec (BitVec w)} {d : Dec (BitVec w)} (h : SimD g d' d) :
    SimD g (decNonZeroInt d') (Buf.decNonZeroInt d) := by
  refine h.bind ?_
  intro v c hc
  simp only []
  split
  · exact .err _
  · exact .ok _ c hc

theorem nzUnwrap_sim (xs : List α) : SimD g (nzUnwrap xs) (Buf.nzUnwrap xs) := by
  intro c hc
  unfold nzUnwrap Buf.nzUnwrap
  split
  · exact .panic
  · exact .ok _ c hc

theorem decNonZeroBytes_sim : SimD g decNonZeroBytes Buf.decNonZeroBytes :=
  decPrefixedNz_sim fun b r _ hr => nzUnwrap_sim b.flatten r hr

theorem decNonZeroString_sim : SimD g decNonZeroString Buf.decNonZeroString := by
  refine decNonZeroBytes_sim.bind ?_
  intro bs c hc
  simp only []
  cases fromUtf8 bs with
  | none => exact .err _
  | some s =>
    simp only []
    split
    · exact .panic
    · exact .ok s c hc

theorem decNonZeroVec_sim {d' : CDec α} {d : Dec α} (h : SimD g d' d) :
    SimD g (decNonZeroVec d') (Buf.decNonZeroVec d) :=
  (decPrefixedNz_sim (decWindow_sim h)).bind nzUnwrap_sim

theorem decNonZeroHashMap_sim [DecidableEq α] {k' : CDec α} {k : Dec α} {v' : CDec β} {v : Dec β} (hk : SimD g k' k)
    (hv : SimD g v' v) : SimD g (decNonZeroHashMap k' v') (Buf.decNonZeroHashMap k v) :=
  (decPrefixedNz_sim (decWindow_sim (decEntry_sim hk hv))).bind fun _ => nzUnwrap_sim _

theorem decNonZeroHashSet_sim [DecidableEq α] {d' : CDec α} {d : Dec α} (h : SimD g d' d) :
    SimD g (decNonZeroHashSet d') (Buf.decNonZeroHashSet d) :=
  (decPrefixedNz_sim (decWindow_sim h)).bind fun _ => nzUnwrap_sim _

theorem decId_sim : SimD g decId Buf.decId := by
  refine (decUint_sim 32).bind ?_
  intro raw c hc
  simp only []
  cases FieldId.fromU32 raw with
  | none => exact .err _
  | some id => exact .ok id c hc

theorem skipVarint_sim (n : Nat) (c : Chunks) (hn : c.flatten.length ≤ n) (hc : g = true → CleanBoundaries c) :
    Sim g (skipVarint n c) (Buf.skipVarint c.flatten) := by
  induction n generalizing c with
  | zero =>
    have : c.flatten = [] := List.eq_nil_of_length_eq_zero (by omega)
    rw [this]; exact .err _
  | succ n ih =>
    unfold skipVarint
    cases h : chunk c with
    | nil => rw [chunk_eq_nil h]; exact .err _
    | cons b bs =>
      have hf := chunk_cons h
      rw [hf] at hn ⊢
      simp only [Buf.skipVarint]
      split
      · exact .ok _ _ fun hg => clean_advance _ (hc hg)
      · exact ih _ (by simpa using hn) fun hg => clean_advance _ (hc hg)

theorem skipFixed_sim (n : Nat) : SimD g (skipFixed n) (Buf.skipFixed n) := by
  intro c hc
  unfold skipFixed Buf.skipFixed remaining
  split
  · exact .err _
  · exact .ok' (flatten_advance _ _) fun hg => clean_advance _ (hc hg)

theorem decSkip_sim (e : FieldEncoding) : SimD g (decSkip e) (Buf.decSkip e) := by
  cases e with
  | varint => exact fun c hc => skipVarint_sim _ c (Nat.le_refl _) hc
  | lengthPrefixed =>
    have hk : SimK g (fun _ rest => CRes.ok () rest) (fun _ rest => Res.ok () rest) := fun _ r _ hr => .ok () r hr
    exact decPrefixed_sim hk
  | fixed1 => exact skipFixed_sim 1
  | fixed4 => exact skipFixed_sim 4
  | fixed8 => exact skipFixed_sim 8

theorem decRep_sim (p : Rep) : SimD g (decRep p) (Codegen.decRep p) := by
  cases p with
  | bool => exact decBool_sim.map _
  | byte => exact decU8_sim.map _
  | uint w => exact (decUint_sim w).map _
  | sint w => exact (decSint_sim w).map _
  | f32 => exact decF32_sim.map _
  | f64 => exact decF64_sim.map _
  | str => exact decString_sim.map _
  | bytes => exact decBytes_sim.map _

theorem decNzRep_sim (p : Rep) : SimD g (decNzRep p) (Codegen.decNzRep p) := by
  cases p with
  | byte => exact (decNonZeroInt_sim decU8_sim).map _
  | uint w => exact (decNonZeroInt_sim (decUint_sim w)).map _
  | sint w => exact (decNonZeroInt_sim (decSint_sim w)).map _
  | str => exact decNonZeroString_sim.map _
  | bytes => exact decNonZeroBytes_sim.map _
  | bool => exact .panic
  | f32 => exact .panic
  | f64 => exact .panic

variable {d' : List String → List Ty → CDec Val} {d : List String → List Ty → Dec Val}

mutual
theorem decTy_sim (h : ∀ n a, SimD g (d' n a) (d n a)) : ∀ (root : Bool) (t : Ty),
    SimD g (decTy d' root t) (Codegen.decTy d root t)
  | _, .prim p => by rw [decTy, Codegen.decTy]; exact decRep_sim _
  | _, .vec t => by rw [decTy, Codegen.decTy]; exact (decVec_sim (decTy_sim h false t)).map _
  | _, .hashMap k v => by
    rw [decTy, Codegen.decTy]; exact (decHashMap_sim (decTy_sim h false k) (decTy_sim h false v)).map _
  | _, .hashSet t => by rw [decTy, Codegen.decTy]; exact (decHashSet_sim (decTy_sim h false t)).map _
  | _, .option t => by rw [decTy, Codegen.decTy]; exact (decOption_sim (decTy_sim h false t)).map _
  | _, .nonZero (.prim p) => by
    rw [decTy, Codegen.decTy]
    split
    · exact decNzRep_sim _
    · exact .panic
  | _, .nonZero (.vec t) => by rw [decTy, Codegen.decTy]; exact (decNonZeroVec_sim (decTy_sim h false t)).map _
  | _, .nonZero (.hashMap k v) => by
    rw [decTy, Codegen.decTy]; exact (decNonZeroHashMap_sim (decTy_sim h false k) (decTy_sim h false v)).map _
  | _, .nonZero (.hashSet t) => by rw [decTy, Codegen.decTy]; exact (decNonZeroHashSet_sim (decTy_sim h false t)).map _
  | _, .nonZero (.option _) | _, .nonZero (.nonZero _) | _, .nonZero (.tuple _) | _, .nonZero (.array _ _)
  | _, .nonZero (.ext _ _) | _, .nonZero (.param _) | _, .nonZero (.inst _) => by
    rw [decTy, Codegen.decTy] <;> first | exact SimD.panic | (intros; simp) | (intros; contradiction)
  | root, .tuple ts => by
    rw [decTy, Codegen.decTy]
    split
    · split
      · exact (decUint_sim 64).bind fun _ => (decTuple_sim h ts).map _
      · exact (decTuple_sim h ts).map _
    · exact .panic
  | _, .array t n => by rw [decTy, Codegen.decTy]; exact (decArray_sim n (decTy_sim h false t)).map _
  | _, .ext name args => by rw [decTy, Codegen.decTy]; exact h name args
  | _, .param _ => by rw [decTy, Codegen.decTy]; exact .panic
  | _, .inst t => by rw [decTy, Codegen.decTy]; exact decTy_sim h false t
theorem decTuple_sim (h : ∀ n a, SimD g (d' n a) (d n a)) : ∀ ts : List Ty,
    SimD g (decTuple d' ts) (Codegen.decTuple d ts)
  | [] => by rw [decTuple, Codegen.decTuple]; exact .ok _
  | t :: ts => by
    rw [decTuple, Codegen.decTuple]
    exact (decTy_sim h false t).bind fun v => (decTuple_sim h ts).map _
end

theorem fieldLoop_sim {dec' : Ty → CDec Val} {dec : Ty → Dec Val} (h : ∀ t, SimD g (dec' t) (dec t))
    (fs : List Field) (n : Nat) (slots : List (Option Val)) :
    SimD g (fieldLoop dec' fs n slots) (Codegen.fieldLoop dec fs n slots) := by
  induction n generalizing slots with
  | zero => exact .hang
  | succ n ih =>
    intro c hc
    unfold fieldLoop Codegen.fieldLoop
    refine (decId_sim c hc).bind ?_
    intro id c hc
    simp only []
    split
    · exact .ok _ c hc
    · cases hi : fs.findIdx? (fun f => f.id == id.value) with
      | none => exact (decSkip_sim _ c hc).bind fun _ => ih _
      | some i =>
        simp only []
        cases hf : fs[i]? with
        | none => exact .panic
        | some f => exact (h _ c hc).bind fun v => ih _

theorem decFields_sim {dec' : Ty → CDec Val} {dec : Ty → Dec Val} (h : ∀ t, SimD g (dec' t) (dec t)) (fs : Fields) :
    SimD g (decFields dec' fs) (Codegen.decFields dec fs) := by
  intro c hc
  unfold decFields Codegen.decFields remaining
  split
  · exact .ok _ c hc
  · refine (fieldLoop_sim h fs.fields _ _ c hc).bind ?_
    intro slots c hc
    simp only []
    cases assigns fs.kind fs.fields slots with
    | error e => exact .err e
    | ok vs => exact .ok vs c hc

theorem decDef_sim {dec' : Ty → CDec Val} {dec : Ty → Dec Val} (h : ∀ t, SimD g (dec' t) (dec t)) (args : List Ty) :
    ∀ df : Def, SimD g (decDef dec' args df) (Codegen.decDef dec args df)
  | .struct fs => (decFields_sim h _).map _
  | .enum vars => by
    unfold decDef Codegen.decDef
    refine (decUint_sim 32).bind ?_
    intro id c hc
    simp only []
    cases hi : vars.findIdx? (fun v => v.id == id) with
    | none => exact .err _
    | some i =>
      simp only []
      cases hf : vars[i]? with
      | none => exact .panic
      | some f => exact (decFields_sim h _ c hc).map _

theorem decExt_sim (env : Env) (n : Nat) (name : List String) (args : List Ty) :
    SimD g (decExt env n name args) (Codegen.decExt env n name args) := by
  induction n generalizing name args with
  | zero => exact .hang
  | succ n ih =>
    unfold decExt Codegen.decExt
    cases env name with
    | none => exact .panic
    | some df => exact decDef_sim (fun t => decTy_sim ih true t) args df

theorem decodeExt_sim (env : Env) (name : List String) (args : List Ty) :
    SimD g (decodeExt env name args) (Codegen.decodeExt env name args) :=
  fun c hc => decExt_sim env _ name args c hc

end Mabo.Chunked
