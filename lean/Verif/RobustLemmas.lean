import Verif.Spec.Safe
import Verif.FragmentLemmas
/-! Decoders that never panic and never loop. -/
namespace Mabo.Codegen
open Mabo.Buf Mabo.Varint Mabo.Schema Mabo.Spec

/-- `Ok` or `Err`. -/
def Fine {α : Type} (x : Res α) : Prop := x ≠ .panic ∧ x ≠ .hang

theorem Fine.ok {α : Type} (v : α) (r : Bytes) : Fine (.ok v r) := ⟨by simp, by simp⟩
theorem Fine.err {α : Type} (e : Error) : Fine (.err e : Res α) := ⟨by simp, by simp⟩

theorem Fine.bind {α β : Type} {x : Res α} {k : α → Bytes → Res β} (h : Fine x)
    (hk : ∀ v r, x = .ok v r → Fine (k v r)) : Fine (x.bind k) := by
  cases x with
  | ok v r => exact hk v r rfl
  | err e => exact Fine.err e
  | panic => exact absurd rfl h.1
  | hang => exact absurd rfl h.2

theorem Fine.map {α β : Type} {x : Res α} (h : Fine x) (f : α → β) : Fine (x.map f) :=
  h.bind fun _ _ _ => Fine.ok ..

/-- Fine on all inputs shorter than `n`. -/
def FineBelow {α : Type} (n : Nat) (d : Dec α) : Prop := ∀ r, r.length < n → Fine (d r)

/-- Success consumes at least one byte. -/
def Consumes {α : Type} (d : Dec α) : Prop := ∀ r v r', d r = .ok v r' → r'.length < r.length

theorem decUint_fine (w : Nat) (r : Bytes) : Fine (decUint w r) := by
  unfold decUint; cases decodeU w r <;> first | exact Fine.err _ | exact Fine.ok ..

theorem decSint_fine (w : Nat) (r : Bytes) : Fine (decSint w r) := by
  unfold decSint; cases decodeI w r <;> first | exact Fine.err _ | exact Fine.ok ..

theorem decU8_fine (r : Bytes) : Fine (decU8 r) := by cases r <;> first | exact Fine.err _ | exact Fine.ok ..

theorem decBool_fine (r : Bytes) : Fine (decBool r) := by cases r <;> first | exact Fine.err _ | exact Fine.ok ..

theorem decPrefixed_fine {β : Type} {k : Bytes → Bytes → Res β} {r : Bytes}
    (h : ∀ b s, b.length < r.length → Fine (k b s)) : Fine (decPrefixed k r) := by
  refine (decUint_fine 64 r).bind fun len r1 h1 => ?_
  have := decUint_consumes h1
  split
  · exact Fine.err _
  · exact h _ _ (by rw [List.length_take]; omega)

theorem decPrefixedNz_fine {β : Type} {k : Bytes → Bytes → Res β} {r : Bytes}
    (h : ∀ b s, b ≠ [] → b.length < r.length → Fine (k b s)) : Fine (decPrefixedNz k r) := by
  refine (decUint_fine 64 r).bind fun len r1 h1 => ?_
  have := decUint_consumes h1
  split
  · exact Fine.err _
  · rename_i hz
    split
    · exact Fine.err _
    · refine h _ _ ?_ (by rw [List.length_take]; omega)
      intro he
      have hl : (r1.take len.toNat).length = 0 := by rw [he]; rfl
      rw [List.length_take] at hl
      apply hz
      apply BitVec.eq_of_toNat_eq
      simp; omega

theorem decBytes_fine (r : Bytes) : Fine (decBytes r) := decPrefixed_fine fun _ _ _ => Fine.ok ..

theorem toStr_fine (b s : Bytes) : Fine (toStr b s) := by
  unfold toStr; cases fromUtf8 b <;> first | exact Fine.err _ | exact Fine.ok ..

theorem decString_fine (r : Bytes) : Fine (decString r) := (decBytes_fine r).bind fun _ _ _ => toStr_fine ..

theorem decRep_fine (p : Rep) (r : Bytes) : Fine (decRep p r) := by
  cases p with
  | bool => exact (decBool_fine r).map _
  | byte => exact (decU8_fine r).map _
  | uint w => exact (decUint_fine w r).map _
  | sint w => exact (decSint_fine w r).map _
  | f32 => refine Fine.map ?_ _; unfold decF32; split <;> first | exact Fine.err _ | exact Fine.ok ..
  | f64 => refine Fine.map ?_ _; unfold decF64; split <;> first | exact Fine.err _ | exact Fine.ok ..
  | str => exact (decString_fine r).map _
  | bytes => exact (decBytes_fine r).map _

theorem nzUnwrap_fine {α : Type} {xs : List α} (h : xs ≠ []) (s : Bytes) : Fine (nzUnwrap xs s) := by
  unfold nzUnwrap
  rw [if_neg (by simpa using h)]
  exact Fine.ok ..

theorem decNonZeroBytes_fine (r : Bytes) : Fine (decNonZeroBytes r) :=
  decPrefixedNz_fine fun _ _ hb _ => nzUnwrap_fine hb _

theorem decNonZeroString_fine (r : Bytes) : Fine (decNonZeroString r) := by
  refine ⟨(Mabo.Props.C11_nonzero_never_panics decU8 decU8 decU8 (fun r => (decU8_fine r).1) (fun r => (decU8_fine r).1)
    (fun r => (decU8_fine r).1) r).2.1, ?_⟩
  unfold decNonZeroString
  cases h : decNonZeroBytes r with
  | ok b s =>
    simp only [Res.bind_ok]
    split <;> try simp only [ne_eq, reduceCtorEq, not_false_eq_true]
    split <;> simp
  | hang => exact absurd h (decNonZeroBytes_fine r).2
  | _ => simp

theorem decNonZeroInt_fine {w : Nat} {d : Dec (BitVec w)} (h : ∀ r, Fine (d r)) (r : Bytes) :
    Fine (decNonZeroInt d r) := by
  refine (h r).bind fun v s _ => ?_
  split <;> first | exact Fine.err _ | exact Fine.ok ..

theorem decNzRep_fine (p : Prim) (h : (Ty.prim p).nzArg = true) (r : Bytes) : Fine (decNzRep p.rep r) := by
  cases p <;> simp [Ty.nzArg] at h <;> simp only [Prim.rep, decNzRep] <;> refine Fine.map ?_ _ <;>
    first
      | exact decNonZeroInt_fine decU8_fine r
      | exact decNonZeroInt_fine (decUint_fine _) r
      | exact decNonZeroInt_fine (decSint_fine _) r
      | exact decNonZeroString_fine r
      | exact decNonZeroBytes_fine r

theorem skipVarint_fine (r : Bytes) : Fine (skipVarint r) := by
  induction r with
  | nil => exact Fine.err _
  | cons b r ih => unfold skipVarint; split <;> first | exact Fine.ok .. | exact ih

theorem skipFixed_fine (n : Nat) (r : Bytes) : Fine (skipFixed n r) := by
  unfold skipFixed; split <;> first | exact Fine.err _ | exact Fine.ok ..

theorem decSkip_fine (e : FieldEncoding) (r : Bytes) : Fine (decSkip e r) := by
  cases e with
  | varint => exact skipVarint_fine r
  | lengthPrefixed => exact decPrefixed_fine (k := fun _ rest => .ok () rest) fun _ _ _ => Fine.ok ..
  | fixed1 => exact skipFixed_fine 1 r
  | fixed4 => exact skipFixed_fine 4 r
  | fixed8 => exact skipFixed_fine 8 r

theorem decId_fine (r : Bytes) : Fine (decId r) := by
  refine (decUint_fine 32 r).bind fun v s _ => ?_
  cases FieldId.fromU32 v <;> first | exact Fine.err _ | exact Fine.ok ..

/-! ### loops -/

theorem decodeMany_fine {α : Type} {d : Dec α} {n : Nat} (hd : FineBelow n d) (hc : Consumes d) (k : Nat) (r : Bytes)
    (hr : r.length < n) (hk : r.length ≤ k) : Fine (decodeMany d k r) := by
  induction k generalizing r with
  | zero => cases r <;> first | exact Fine.ok .. | simp at hk
  | succ k ih =>
    cases r with
    | nil => exact Fine.ok ..
    | cons b r =>
      unfold decodeMany
      refine (hd _ hr).bind fun v s h => ?_
      have := hc _ _ _ h
      exact (ih s (by omega) (by omega)).map _

theorem decodeMany_ne_nil {α : Type} (d : Dec α) (n : Nat) (b r' : Bytes) (xs : List α)
    (hb : b ≠ []) (h : decodeMany d n b = .ok xs r') : xs ≠ [] := by
  cases b with
  | nil => simp at hb
  | cons a b =>
    cases n with
    | zero => simp [decodeMany] at h
    | succ n =>
      unfold decodeMany at h
      obtain ⟨v, s, _, h2⟩ := Res.bind_eq_ok.1 h
      obtain ⟨ys, _, rfl⟩ := Res.map_eq_ok.1 h2
      simp

theorem decWindow_fine {α : Type} {d : Dec α} {n : Nat} (hd : FineBelow n d) (hc : Consumes d) {b s : Bytes}
    (hb : b.length < n) : Fine (decWindow d b s) :=
  (decodeMany_fine hd hc _ b hb (Nat.le_refl _)).bind fun _ _ _ => Fine.ok ..

theorem decVec_fine {α : Type} {d : Dec α} {n : Nat} (hd : FineBelow n d) (hc : Consumes d) :
    FineBelow n (decVec d) := fun _ hr =>
  decPrefixed_fine fun _ _ hb => decWindow_fine hd hc (by omega)

theorem decNonZeroWindow_fine {α β : Type} {d : Dec α} {n : Nat} (hd : FineBelow n d) (hc : Consumes d)
    (f : List α → List β) (hf : ∀ xs, xs ≠ [] → f xs ≠ []) :
    FineBelow n (fun r => (decPrefixedNz (decWindow d) r).bind fun xs r => nzUnwrap (f xs) r) := by
  intro r hr
  refine (decPrefixedNz_fine fun b s _ hb => decWindow_fine hd hc (by omega)).bind fun xs s h => ?_
  refine nzUnwrap_fine (hf xs ?_) s
  obtain ⟨len, r1, h1, hle, hz, h2⟩ := decPrefixedNz_inv h
  unfold decWindow at h2
  obtain ⟨ys, t, h3, h4⟩ := Res.bind_eq_ok.1 h2
  simp only [Res.ok.injEq] at h4
  obtain ⟨rfl, rfl⟩ := h4
  refine decodeMany_ne_nil d _ _ _ _ ?_ h3
  intro he
  have hl : (r1.take len.toNat).length = 0 := by rw [he]; rfl
  rw [List.length_take] at hl
  apply hz
  apply BitVec.eq_of_toNat_eq
  simp; omega

theorem decEntry_fine {κ ν : Type} {dk : Dec κ} {dv : Dec ν} {n : Nat} (hk : FineBelow n dk) (hv : FineBelow n dv)
    (hl : Local dk) : FineBelow n (decEntry dk dv) := fun r hr =>
  (hk r hr).bind fun _ _ h => (hv _ (by have := hl.suffix h; omega)).bind fun _ _ _ => Fine.ok ..

theorem decEntry_consumes {κ ν : Type} {dk : Dec κ} {dv : Dec ν} (hlk : Local dk) (hlv : Local dv)
    (h : Consumes dk ∨ Consumes dv) : Consumes (decEntry dk dv) := by
  intro r v r' he
  obtain ⟨a, s, h1, h2⟩ := Res.bind_eq_ok.1 he
  obtain ⟨b, s', h3, h4⟩ := Res.bind_eq_ok.1 h2
  simp only [Res.ok.injEq] at h4
  obtain ⟨-, rfl⟩ := h4
  have := hlk.suffix h1
  have := hlv.suffix h3
  rcases h with h | h
  · have := h _ _ _ h1; omega
  · have := h _ _ _ h3; omega

/-! ### consumption -/

theorem Consumes.map {α β : Type} {d : Dec α} (h : Consumes d) (f : α → β) : Consumes (fun r => (d r).map f) := by
  intro r v r' he
  obtain ⟨a, ha, -⟩ := Res.map_eq_ok.1 he
  exact h _ _ _ ha

theorem decPrefixed_consumes {β : Type} {k : Bytes → Bytes → Res β} (hk : ∀ b s v s', k b s = .ok v s' → s' = s) :
    Consumes (decPrefixed k) := by
  intro r v r' h
  obtain ⟨len, r1, h1, -, h3⟩ := decPrefixed_inv h
  have := decUint_consumes h1
  have := hk _ _ _ _ h3
  subst this
  rw [List.length_drop]; omega

theorem decPrefixedNz_consumes {β : Type} {k : Bytes → Bytes → Res β} (hk : ∀ b s v s', k b s = .ok v s' → s' = s) :
    Consumes (decPrefixedNz k) := by
  intro r v r' h
  obtain ⟨len, r1, h1, -, -, h3⟩ := decPrefixedNz_inv h
  have := decUint_consumes h1
  have := hk _ _ _ _ h3
  subst this
  rw [List.length_drop]; omega

theorem decWindow_rest {α : Type} {d : Dec α} (b s : Bytes) (v : List α) (s' : Bytes) (h : decWindow d b s = .ok v s') :
    s' = s := by
  obtain ⟨_, _, _, h2⟩ := Res.bind_eq_ok.1 h
  simp only [Res.ok.injEq] at h2
  exact h2.2.symm

theorem nzUnwrap_rest {α : Type} (xs : List α) (s : Bytes) (v : List α) (s' : Bytes) (h : nzUnwrap xs s = .ok v s') :
    s' = s := by
  unfold nzUnwrap at h
  split at h
  · simp at h
  · simp only [Res.ok.injEq] at h; exact h.2.symm

theorem decNzWindow_consumes {α β : Type} {d : Dec α} (f : List α → List β) :
    Consumes (fun r => (decPrefixedNz (decWindow d) r).bind fun xs r => nzUnwrap (f xs) r) := by
  intro r v r' h
  obtain ⟨a, s, h1, h2⟩ := Res.bind_eq_ok.1 h
  have := decPrefixedNz_consumes decWindow_rest _ _ _ h1
  have := nzUnwrap_rest _ _ _ _ h2
  subst this
  assumption

theorem decU8_consumes : Consumes decU8 := by
  intro r v r' h
  cases r with
  | nil => simp [decU8] at h
  | cons b r => simp only [decU8, Res.ok.injEq] at h; obtain ⟨-, rfl⟩ := h; simp

theorem decUint_consumes' (w : Nat) : Consumes (decUint w) := fun _ _ _ h => decUint_consumes h

theorem decSint_consumes (w : Nat) : Consumes (decSint w) := by
  intro r v r' h
  rw [decSint_eq] at h
  obtain ⟨a, ha, -⟩ := Res.map_eq_ok.1 h
  exact decUint_consumes ha

theorem decBytes_consumes : Consumes decBytes :=
  decPrefixed_consumes fun b s v s' h => by simp only [Res.ok.injEq] at h; exact h.2.symm

theorem decRep_consumes (p : Rep) : Consumes (decRep p) := by
  cases p with
  | bool =>
    refine Consumes.map ?_ _
    intro r v r' h
    cases r with
    | nil => simp [decBool] at h
    | cons b r => simp only [decBool, Res.ok.injEq] at h; obtain ⟨-, rfl⟩ := h; simp
  | byte => exact decU8_consumes.map _
  | uint w => exact (decUint_consumes' w).map _
  | sint w => exact (decSint_consumes w).map _
  | f32 =>
    refine Consumes.map ?_ _
    intro r v r' h
    unfold decF32 at h
    split at h
    · simp at h
    · simp only [Res.ok.injEq] at h; obtain ⟨-, rfl⟩ := h; rw [List.length_drop]; omega
  | f64 =>
    refine Consumes.map ?_ _
    intro r v r' h
    unfold decF64 at h
    split at h
    · simp at h
    · simp only [Res.ok.injEq] at h; obtain ⟨-, rfl⟩ := h; rw [List.length_drop]; omega
  | str =>
    refine Consumes.map ?_ _
    intro r v r' h
    obtain ⟨b, s, h1, h2⟩ := Res.bind_eq_ok.1 h
    have := decBytes_consumes _ _ _ h1
    have := (toStr_local b).suffix h2
    omega
  | bytes => exact decBytes_consumes.map _

theorem decNzRep_consumes (p : Rep) : Consumes (decNzRep p) := by
  have nz : ∀ {w : Nat} {d : Dec (BitVec w)}, Consumes d → Consumes (decNonZeroInt d) := by
    intro w d hd r v r' h
    obtain ⟨a, s, h1, h2⟩ := Res.bind_eq_ok.1 h
    have := hd _ _ _ h1
    split at h2
    · simp at h2
    · simp only [Res.ok.injEq] at h2; obtain ⟨-, rfl⟩ := h2; assumption
  have nb : Consumes decNonZeroBytes := decPrefixedNz_consumes nzUnwrap_rest
  cases p with
  | byte => exact (nz decU8_consumes).map _
  | uint w => exact (nz (decUint_consumes' w)).map _
  | sint w => exact (nz (decSint_consumes w)).map _
  | str =>
    refine Consumes.map ?_ _
    intro r v r' h
    obtain ⟨b, s, h1, h2⟩ := Res.bind_eq_ok.1 h
    have := nb _ _ _ h1
    cases hu : fromUtf8 b with
    | none => rw [hu] at h2; simp at h2
    | some x =>
      rw [hu] at h2
      simp only at h2
      split at h2
      · simp at h2
      · simp only [Res.ok.injEq] at h2; obtain ⟨-, rfl⟩ := h2; assumption
  | bytes => exact nb.map _
  | _ => intro r v r' h; simp [decNzRep] at h

theorem decFields_consumes {dec : Ty → Dec Val} (hl : ∀ t, Local (dec t)) (fs : Fields) (hk : fs.kind ≠ .unit) :
    Consumes (decFields dec fs) := by
  intro r v r' h
  unfold decFields at h
  rw [if_neg hk] at h
  obtain ⟨slots, s, h1, h2⟩ := Res.bind_eq_ok.1 h
  have hs : r'.length ≤ s.length := by
    cases ha : assigns fs.kind fs.fields slots with
    | ok vs => rw [ha] at h2; simp only [Res.ok.injEq] at h2; rw [h2.2]; exact Nat.le_refl _
    | error e => rw [ha] at h2; simp at h2
  rw [fieldLoop] at h1
  obtain ⟨id, r1, h3, h4⟩ := Res.bind_eq_ok.1 h1
  have := decId_consumes h3
  have hle : s.length ≤ r1.length := by
    split at h4
    · simp only [Res.ok.injEq] at h4; rw [h4.2]; exact Nat.le_refl _
    · cases hfi : fs.fields.findIdx? (fun f => f.id == id.value) with
      | none =>
        rw [hfi] at h4
        obtain ⟨_, r2, h5, h6⟩ := Res.bind_eq_ok.1 h4
        have := (decSkip_local _).suffix h5
        have := (fieldLoop_local hl fs.fields _ _).suffix h6
        omega
      | some i =>
        rw [hfi] at h4
        simp only at h4
        cases hf : fs.fields[i]? with
        | none => rw [hf] at h4; simp at h4
        | some f =>
          rw [hf] at h4
          obtain ⟨_, r2, h5, h6⟩ := Res.bind_eq_ok.1 h4
          have := (hl _).suffix h5
          have := (fieldLoop_local hl fs.fields _ _).suffix h6
          omega
  omega

theorem decDef_consumes {dec : Ty → Dec Val} (hl : ∀ t, Local (dec t)) (args : List Ty) (d : Def)
    (h : ∀ fs, d = .struct fs → fs.kind ≠ .unit) : Consumes (decDef dec args d) := by
  cases d with
  | struct fs => exact (decFields_consumes hl (fs.subst args) (h fs rfl)).map _
  | enum vars =>
    intro r v r' he
    simp only [decDef] at he
    obtain ⟨id, r1, h1, h2⟩ := Res.bind_eq_ok.1 he
    have := decUint_consumes h1
    cases hfi : vars.findIdx? (fun v => v.id == id) with
    | none => rw [hfi] at h2; simp at h2
    | some i =>
      rw [hfi] at h2
      simp only at h2
      cases hv : vars[i]? with
      | none => rw [hv] at h2; simp at h2
      | some var =>
        rw [hv] at h2
        obtain ⟨a, h3, -⟩ := Res.map_eq_ok.1 h2
        have := (decFields_local hl _).suffix h3
        omega

/-- Named types that are not unit structs consume something. -/
def NeExt (env : Env) (dext : List String → List Ty → Dec Val) : Prop :=
  ∀ name args, neTy env (.ext name args) = true → Consumes (dext name args)

theorem decExt_neExt (env : Env) (n : Nat) : NeExt env (decExt env n) := by
  intro name args h
  cases n with
  | zero => intro r v r' he; simp [decExt] at he
  | succ n =>
    rw [decExt]
    cases hd : env name with
    | none => intro r v r' he; simp at he
    | some d =>
      refine decDef_consumes (fun t => decTy_local (decExt_local env n) true t) args d ?_
      rintro fs rfl
      simpa [neTy, hd] using h

mutual
theorem decTy_consumes {env : Env} {dext : List String → List Ty → Dec Val} (hl : ∀ a b, Local (dext a b))
    (hx : NeExt env dext) : ∀ (root : Bool) (t : Ty), neTy env t = true → Consumes (decTy dext root t)
  | _, .prim p, _ => decRep_consumes _
  | _, .vec t, _ => (decPrefixed_consumes decWindow_rest).map _
  | _, .hashMap k v, _ => by
    unfold decTy
    exact ((decPrefixed_consumes decWindow_rest).map _).map _
  | _, .hashSet t, _ => by
    unfold decTy
    exact ((decPrefixed_consumes decWindow_rest).map _).map _
  | _, .option t, _ => by
    unfold decTy
    refine Consumes.map ?_ _
    intro r v r' h
    obtain ⟨b, s, h1, h2⟩ := Res.bind_eq_ok.1 h
    have := decU8_consumes _ _ _ h1
    split at h2
    · obtain ⟨_, h3, -⟩ := Res.map_eq_ok.1 h2
      have := (decTy_local hl false t).suffix h3
      omega
    · simp only [Res.ok.injEq] at h2; rw [← h2.2]; exact this
  | _, .nonZero t, _ => by
    cases t <;> unfold decTy <;> first
      | (split <;> first | exact decNzRep_consumes _ | (intro r v r' h; simp at h))
      | exact (decNzWindow_consumes id).map _
      | exact (decNzWindow_consumes toMap).map _
      | exact (decNzWindow_consumes toSet).map _
      | (intro r v r' h; simp at h)
  | root, .tuple ts, h => by
    have hc := decTuple_consumes hl hx ts (by simpa [neTy] using h)
    unfold decTy
    split
    · cases root
      · simpa using hc.map _
      · simp only [if_true]
        intro r v r' he
        obtain ⟨a, s, h1, h2⟩ := Res.bind_eq_ok.1 he
        have := decUint_consumes h1
        have := (hc.map _) _ _ _ h2
        omega
    · intro r v r' he; simp at he
  | _, .array t n, _ => by
    unfold decTy
    refine Consumes.map (decPrefixed_consumes ?_) _
    intro b s v s' h
    obtain ⟨_, _, _, h2⟩ := Res.bind_eq_ok.1 h
    split at h2
    · simp only [Res.ok.injEq] at h2; exact h2.2.symm
    · simp at h2
  | _, .ext name args, h => by unfold decTy; exact hx name args h
  | _, .param _, _ => by intro r v r' he; simp [decTy] at he
  | _, .inst t, h => by unfold decTy; exact decTy_consumes hl hx false t (by simpa [neTy] using h)
theorem decTuple_consumes {env : Env} {dext : List String → List Ty → Dec Val} (hl : ∀ a b, Local (dext a b))
    (hx : NeExt env dext) : ∀ ts : List Ty, neAny env ts = true → Consumes (decTuple dext ts)
  | [], h => by simp [neAny] at h
  | t :: ts, h => by
    simp only [neAny, Bool.or_eq_true] at h
    intro r v r' he
    unfold decTuple at he
    obtain ⟨a, s, h1, h2⟩ := Res.bind_eq_ok.1 he
    obtain ⟨b, h3, -⟩ := Res.map_eq_ok.1 h2
    have h4 := (decTy_local hl false t).suffix h1
    have h5 := (decTuple_local hl ts).suffix h3
    rcases h with h | h
    · have := decTy_consumes hl hx false t h _ _ _ h1; omega
    · have := decTuple_consumes hl hx ts h _ _ _ h3; omega
end

/-! ### safe types -/

/-- Named types are decoded finely on short inputs. -/
def FineExt (env : Env) (arity : List String → Nat) (n : Nat) (dext : List String → List Ty → Dec Val) : Prop :=
  ∀ name args, safeTy env arity 0 (.ext name args) = true → FineBelow n (dext name args)

mutual
theorem decTy_fine {env : Env} {arity : List String → Nat} {n : Nat} {dext : List String → List Ty → Dec Val}
    (hl : ∀ a b, Local (dext a b)) (hx : NeExt env dext) (hf : FineExt env arity n dext) :
    ∀ (root : Bool) (t : Ty), safeTy env arity 0 t = true → FineBelow n (decTy dext root t)
  | _, .prim p, _ => fun r _ => decRep_fine _ r
  | _, .vec t, h => by
    simp only [safeTy, Bool.and_eq_true] at h
    intro r hr
    unfold decTy
    exact (decVec_fine (decTy_fine hl hx hf false t h.1) (decTy_consumes hl hx false t h.2) r hr).map _
  | _, .hashSet t, h => by
    simp only [safeTy, Bool.and_eq_true] at h
    intro r hr
    unfold decTy
    exact ((decVec_fine (decTy_fine hl hx hf false t h.1) (decTy_consumes hl hx false t h.2) r hr).map _).map _
  | _, .hashMap a b, h => by
    simp only [safeTy, Bool.and_eq_true, Bool.or_eq_true] at h
    intro r hr
    unfold decTy
    exact ((decVec_fine (decEntry_fine (decTy_fine hl hx hf false a h.1.1) (decTy_fine hl hx hf false b h.1.2)
      (decTy_local hl false a)) (decEntry_consumes (decTy_local hl false a) (decTy_local hl false b)
        (h.2.imp (decTy_consumes hl hx false a) (decTy_consumes hl hx false b))) r hr).map _).map _
  | _, .option t, h => by
    simp only [safeTy] at h
    intro r hr
    unfold decTy
    refine Fine.map ?_ _
    refine (decU8_fine r).bind fun b s hb => ?_
    have := decU8_consumes _ _ _ hb
    split
    · exact (decTy_fine hl hx hf false t h s (by omega)).map _
    · exact Fine.ok ..
  | _, .nonZero (.prim p), h => by
    simp only [safeTy] at h
    intro r hr
    unfold decTy
    rw [if_pos h]
    exact decNzRep_fine p h r
  | _, .nonZero (.vec t), h => by
    simp only [safeTy, Bool.and_eq_true] at h
    intro r hr
    unfold decTy
    exact (decNonZeroWindow_fine (decTy_fine hl hx hf false t h.1) (decTy_consumes hl hx false t h.2) id
      (fun _ h => h) r hr).map _
  | _, .nonZero (.hashSet t), h => by
    simp only [safeTy, Bool.and_eq_true] at h
    intro r hr
    unfold decTy
    exact (decNonZeroWindow_fine (decTy_fine hl hx hf false t h.1) (decTy_consumes hl hx false t h.2) toSet
      toSet_ne_nil r hr).map _
  | _, .nonZero (.hashMap a b), h => by
    simp only [safeTy, Bool.and_eq_true, Bool.or_eq_true] at h
    intro r hr
    unfold decTy
    exact (decNonZeroWindow_fine (decEntry_fine (decTy_fine hl hx hf false a h.1.1) (decTy_fine hl hx hf false b h.1.2)
      (decTy_local hl false a)) (decEntry_consumes (decTy_local hl false a) (decTy_local hl false b)
        (h.2.imp (decTy_consumes hl hx false a) (decTy_consumes hl hx false b))) toMap toMap_ne_nil r hr).map _
  | _, .nonZero (.option _), h | _, .nonZero (.nonZero _), h | _, .nonZero (.tuple _), h
  | _, .nonZero (.array _ _), h | _, .nonZero (.ext _ _), h | _, .nonZero (.param _), h
  | _, .nonZero (.inst _), h => by simp [safeTy] at h
  | root, .tuple ts, h => by
    simp only [safeTy, Bool.and_eq_true, decide_eq_true_eq] at h
    intro r hr
    unfold decTy
    rw [if_pos h.1]
    cases root
    · exact (decTuple_fine hl hx hf ts h.2 r hr).map _
    · simp only [if_true]
      refine (decUint_fine 64 r).bind fun a s ha => ?_
      have := decUint_consumes ha
      exact (decTuple_fine hl hx hf ts h.2 s (by omega)).map _
  | _, .array _ _, h => by simp [safeTy] at h
  | _, .ext name args, h => by unfold decTy; exact hf name args h
  | _, .param _, h => by simp [safeTy] at h
  | _, .inst t, h => by unfold decTy; exact decTy_fine hl hx hf false t (by simpa [safeTy] using h)
theorem decTuple_fine {env : Env} {arity : List String → Nat} {n : Nat} {dext : List String → List Ty → Dec Val}
    (hl : ∀ a b, Local (dext a b)) (hx : NeExt env dext) (hf : FineExt env arity n dext) :
    ∀ ts : List Ty, safeTys env arity 0 ts = true → FineBelow n (decTuple dext ts)
  | [], _ => fun _ _ => Fine.ok ..
  | t :: ts, h => by
    simp only [safeTys, Bool.and_eq_true] at h
    intro r hr
    unfold decTuple
    refine (decTy_fine hl hx hf false t h.1 r hr).bind fun v s hv => ?_
    have := (decTy_local hl false t).suffix hv
    exact (decTuple_fine hl hx hf ts h.2 s (by omega)).map _
end

theorem safeTys_get {env : Env} {arity : List String → Nat} {k : Nat} {args : List Ty}
    (h : safeTys env arity k args = true) (hn : neAll env args = true) {i : Nat} {a : Ty} (ha : args[i]? = some a) :
    safeTy env arity k a = true ∧ neTy env a = true := by
  induction args generalizing i with
  | nil => simp at ha
  | cons t ts ih =>
    simp only [safeTys, Bool.and_eq_true] at h
    simp only [neAll, Bool.and_eq_true] at hn
    cases i with
    | zero => simp at ha; subst ha; exact ⟨h.1, hn.1⟩
    | succ i => exact ih h.2 hn.2 (by simpa using ha)

theorem substList_length (args ts : List Ty) : (Ty.substList args ts).length = ts.length := by
  induction ts with
  | nil => rfl
  | cons t ts ih => simp [Ty.substList, ih]

mutual
theorem safeTy_subst {env : Env} {arity : List String → Nat} {args : List Ty} {k : Nat}
    (ha : safeTys env arity k args = true) (hn : neAll env args = true) :
    ∀ t, safeTy env arity args.length t = true → safeTy env arity k (t.subst args) = true
  | .prim _, _ => rfl
  | .vec t, h => by
    simp only [safeTy, Bool.and_eq_true] at h
    simp only [Ty.subst, safeTy, Bool.and_eq_true]
    exact ⟨safeTy_subst ha hn t h.1, neTy_subst (fun _ _ h => (safeTys_get ha hn h).2) t h.2⟩
  | .hashSet t, h => by
    simp only [safeTy, Bool.and_eq_true] at h
    simp only [Ty.subst, safeTy, Bool.and_eq_true]
    exact ⟨safeTy_subst ha hn t h.1, neTy_subst (fun _ _ h => (safeTys_get ha hn h).2) t h.2⟩
  | .hashMap a b, h => by
    simp only [safeTy, Bool.and_eq_true, Bool.or_eq_true] at h
    simp only [Ty.subst, safeTy, Bool.and_eq_true, Bool.or_eq_true]
    exact ⟨⟨safeTy_subst ha hn a h.1.1, safeTy_subst ha hn b h.1.2⟩,
      h.2.imp (neTy_subst (fun _ _ h => (safeTys_get ha hn h).2) a) (neTy_subst (fun _ _ h => (safeTys_get ha hn h).2) b)⟩
  | .option t, h => by
    simp only [safeTy] at h
    simp only [Ty.subst, safeTy]
    exact safeTy_subst ha hn t h
  | .inst t, h => by
    simp only [safeTy] at h
    simp only [Ty.subst, safeTy]
    exact safeTy_subst ha hn t h
  | .nonZero (.prim p), h => by simp only [safeTy] at h; simp only [Ty.subst, safeTy]; exact h
  | .nonZero (.vec t), h => by
    simp only [safeTy, Bool.and_eq_true] at h
    simp only [Ty.subst, safeTy, Bool.and_eq_true]
    exact ⟨safeTy_subst ha hn t h.1, neTy_subst (fun _ _ h => (safeTys_get ha hn h).2) t h.2⟩
  | .nonZero (.hashSet t), h => by
    simp only [safeTy, Bool.and_eq_true] at h
    simp only [Ty.subst, safeTy, Bool.and_eq_true]
    exact ⟨safeTy_subst ha hn t h.1, neTy_subst (fun _ _ h => (safeTys_get ha hn h).2) t h.2⟩
  | .nonZero (.hashMap a b), h => by
    simp only [safeTy, Bool.and_eq_true, Bool.or_eq_true] at h
    simp only [Ty.subst, safeTy, Bool.and_eq_true, Bool.or_eq_true]
    exact ⟨⟨safeTy_subst ha hn a h.1.1, safeTy_subst ha hn b h.1.2⟩,
      h.2.imp (neTy_subst (fun _ _ h => (safeTys_get ha hn h).2) a) (neTy_subst (fun _ _ h => (safeTys_get ha hn h).2) b)⟩
  | .nonZero (.option _), h | .nonZero (.nonZero _), h | .nonZero (.tuple _), h
  | .nonZero (.array _ _), h | .nonZero (.ext _ _), h | .nonZero (.param _), h
  | .nonZero (.inst _), h => by simp [safeTy] at h
  | .tuple ts, h => by
    simp only [safeTy, Bool.and_eq_true] at h
    simp only [Ty.subst, safeTy, Bool.and_eq_true, substList_length]
    exact ⟨h.1, safeTys_subst ha hn ts h.2⟩
  | .array _ _, h => by simp [safeTy] at h
  | .ext name as, h => by
    simp only [safeTy, Bool.and_eq_true] at h
    simp only [Ty.subst, safeTy, Bool.and_eq_true, substList_length]
    exact ⟨⟨h.1.1, safeTys_subst ha hn as h.1.2⟩, neAll_subst ha hn as h.2⟩
  | .param i, h => by
    simp only [safeTy, decide_eq_true_eq] at h
    simp only [Ty.subst]
    rw [List.getElem?_eq_getElem h]
    simp only [safeTy]
    exact (safeTys_get ha hn (List.getElem?_eq_getElem h)).1
theorem safeTys_subst {env : Env} {arity : List String → Nat} {args : List Ty} {k : Nat}
    (ha : safeTys env arity k args = true) (hn : neAll env args = true) :
    ∀ ts, safeTys env arity args.length ts = true → safeTys env arity k (Ty.substList args ts) = true
  | [], _ => rfl
  | t :: ts, h => by
    simp only [safeTys, Bool.and_eq_true] at h
    simp only [Ty.substList, safeTys, Bool.and_eq_true]
    exact ⟨safeTy_subst ha hn t h.1, safeTys_subst ha hn ts h.2⟩
theorem neAll_subst {env : Env} {arity : List String → Nat} {args : List Ty} {k : Nat}
    (ha : safeTys env arity k args = true) (hn : neAll env args = true) :
    ∀ ts, neAll env ts = true → neAll env (Ty.substList args ts) = true
  | [], _ => rfl
  | t :: ts, h => by
    simp only [neAll, Bool.and_eq_true] at h
    simp only [Ty.substList, neAll, Bool.and_eq_true]
    exact ⟨neTy_subst (fun _ _ h => (safeTys_get ha hn h).2) t h.1, neAll_subst ha hn ts h.2⟩
end

theorem fieldLoop_fine {dec : Ty → Dec Val} {n : Nat} (hl : ∀ t, Local (dec t)) (fs : List Field)
    (hd : ∀ f ∈ fs, FineBelow n (dec (fieldTy f.ty))) (k : Nat) (slots : List (Option Val)) (r : Bytes)
    (hr : r.length ≤ n) (hk : r.length < k) : Fine (fieldLoop dec fs k slots r) := by
  induction k generalizing slots r with
  | zero => omega
  | succ k ih =>
    rw [fieldLoop]
    refine (decId_fine r).bind fun id s hs => ?_
    have := decId_consumes hs
    split
    · exact Fine.ok ..
    · cases hfi : fs.findIdx? (fun f => f.id == id.value) with
      | none =>
        refine (decSkip_fine _ s).bind fun _ s2 h2 => ?_
        have := (decSkip_local _).suffix h2
        exact ih _ s2 (by omega) (by omega)
      | some i =>
        obtain ⟨hlt, -, -⟩ := List.findIdx?_eq_some_iff_getElem.1 hfi
        simp only [List.getElem?_eq_getElem hlt]
        refine (hd _ (List.getElem_mem hlt) s (by omega)).bind fun v s2 h2 => ?_
        have := (hl _).suffix h2
        exact ih _ s2 (by omega) (by omega)

theorem decFields_fine {dec : Ty → Dec Val} {n : Nat} (hl : ∀ t, Local (dec t)) (fs : Fields)
    (hd : ∀ f ∈ fs.fields, FineBelow n (dec (fieldTy f.ty))) (r : Bytes) (hr : r.length ≤ n) :
    Fine (decFields dec fs r) := by
  unfold decFields
  split
  · exact Fine.ok ..
  · refine (fieldLoop_fine hl fs.fields hd _ _ r hr (by omega)).bind fun slots s _ => ?_
    cases assigns fs.kind fs.fields slots <;> first | exact Fine.ok .. | exact Fine.err _

theorem safeTy_fieldTy {env : Env} {arity : List String → Nat} {k : Nat} {t : Ty} (h : safeTy env arity k t = true) :
    safeTy env arity k (fieldTy t) = true := by
  cases t with
  | option t => simpa [fieldTy, safeTy] using h
  | _ => exact h

theorem decExt_fine {env : Env} {arity : List String → Nat} (hE : SafeEnv env arity) (n : Nat) :
    FineExt env arity n (decExt env n) := by
  induction n with
  | zero => intro name args _ r hr; omega
  | succ n ih =>
    intro name args hs r hr
    have hs' := hs
    simp only [safeTy, Bool.and_eq_true, decide_eq_true_eq] at hs'
    rw [decExt]
    have hl : ∀ t, Local (decTy (decExt env n) true t) := fun t => decTy_local (decExt_local env n) true t
    have key : ∀ (d : Def), env name = some d → ∀ fs ∈ Def.fieldLists d, ∀ f ∈ (fs.subst args).fields,
        FineBelow n (decTy (decExt env n) true (fieldTy f.ty)) := by
      intro d hd fs hfs f hf
      obtain ⟨g, hg, rfl⟩ := List.mem_map.1 (by simpa [Fields.subst] using hf)
      have h1 := hE name d hd fs hfs g hg
      rw [← hs'.1.1.2] at h1
      exact decTy_fine (decExt_local env n) (decExt_neExt env n) ih true _
        (safeTy_fieldTy (safeTy_subst hs'.1.2 hs'.2 _ h1))
    cases hd : env name with
    | none => rw [hd] at hs'; simp at hs'
    | some d =>
      have hk := key d hd
      cases d with
      | struct fs => exact (decFields_fine hl _ (hk fs (by simp [Def.fieldLists])) r (by omega)).map _
      | enum vars =>
        simp only [decDef]
        refine (decUint_fine 32 r).bind fun id s h1 => ?_
        have := decUint_consumes h1
        cases hfi : vars.findIdx? (fun v => v.id == id) with
        | none => exact Fine.err _
        | some i =>
          obtain ⟨hlt, -, -⟩ := List.findIdx?_eq_some_iff_getElem.1 hfi
          simp only [List.getElem?_eq_getElem hlt]
          refine (decFields_fine hl _ (hk _ ?_) s (by omega)).map _
          simp only [Def.fieldLists, List.mem_map]
          exact ⟨_, List.getElem_mem hlt, rfl⟩

/-- Generated decoders of safe types never panic and never loop. -/
theorem decode_fine {env : Env} {arity : List String → Nat} (hE : SafeEnv env arity) (root : Bool) (t : Ty)
    (h : safeTy env arity 0 t = true) (r : Bytes) : Fine (decode env root t r) := by
  refine decTy_fine (arity := arity) (n := r.length + 1) (fun a b => decodeExt_local env a b) ?_ ?_ root t h r (by omega)
  · intro name args hn s v s' he
    exact decExt_neExt env _ name args hn s v s' he
  · intro name args hs s _
    exact decExt_fine hE (s.length + 1) name args hs s (by omega)

end Mabo.Codegen
