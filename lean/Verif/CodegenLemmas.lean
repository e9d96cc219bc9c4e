import Verif.Codegen
import Verif.BufLemmas
/-! Helper lemmas about the generated decoders: locality and independence of the fuel. -/
namespace Mabo.Codegen
open Mabo.Buf Mabo.Varint Mabo.Schema

/-! ### locality -/

theorem decRep_local (p : Rep) : Local (decRep p) := by
  cases p <;> simp only [decRep]
  · exact decBool_local.map _
  · exact decU8_local.map _
  · exact (decUint_local _).map _
  · exact (decSint_local _).map _
  · exact decF32_local.map _
  · exact decF64_local.map _
  · exact decString_local.map _
  · exact decBytes_local.map _

theorem decNzRep_local (p : Rep) : Local (decNzRep p) := by
  cases p <;> simp only [decNzRep]
  · exact Local.panic
  · exact (decNonZeroInt_local decU8_local).map _
  · exact (decNonZeroInt_local (decUint_local _)).map _
  · exact (decNonZeroInt_local (decSint_local _)).map _
  · exact Local.panic
  · exact Local.panic
  · exact decNonZeroString_local.map _
  · exact decNonZeroBytes_local.map _

mutual
theorem decTy_local {dext : List String → List Ty → Dec Val} (h : ∀ n a, Local (dext n a)) :
    ∀ (root : Bool) (t : Ty), Local (decTy dext root t)
  | _, .prim p => by simp only [decTy]; exact decRep_local _
  | _, .vec t => by simp only [decTy]; exact (decVec_local _).map _
  | _, .hashMap k v => by simp only [decTy]; exact (decHashMap_local _ _).map _
  | _, .hashSet t => by simp only [decTy]; exact (decHashSet_local _).map _
  | _, .option t => by simp only [decTy]; exact (decOption_local (decTy_local h false t)).map _
  | _, .nonZero (.prim p) => by
    simp only [decTy]; split
    · exact decNzRep_local _
    · exact Local.panic
  | _, .nonZero (.vec t) => by simp only [decTy]; exact (decNonZeroVec_local _).map _
  | _, .nonZero (.hashMap k v) => by simp only [decTy]; exact (decNonZeroHashMap_local _ _).map _
  | _, .nonZero (.hashSet t) => by simp only [decTy]; exact (decNonZeroHashSet_local _).map _
  | _, .nonZero (.option _) => by simp only [decTy]; exact Local.panic
  | _, .nonZero (.nonZero _) => by simp only [decTy]; exact Local.panic
  | _, .nonZero (.tuple _) => by simp only [decTy]; exact Local.panic
  | _, .nonZero (.array _ _) => by simp only [decTy]; exact Local.panic
  | _, .nonZero (.ext _ _) => by simp only [decTy]; exact Local.panic
  | _, .nonZero (.param _) => by simp only [decTy]; exact Local.panic
  | _, .nonZero (.inst _) => by simp only [decTy]; exact Local.panic
  | root, .tuple ts => by
    simp only [decTy]; split
    · split
      · exact (decUint_local 64).bind fun _ => (decTuple_local h ts).map _
      · exact (decTuple_local h ts).map _
    · exact Local.panic
  | _, .array t n => by simp only [decTy]; exact (decArray_local _ _).map _
  | _, .ext n a => by simp only [decTy]; exact h n a
  | _, .param _ => by simp only [decTy]; exact Local.panic
  | _, .inst t => by simp only [decTy]; exact decTy_local h false t
theorem decTuple_local {dext : List String → List Ty → Dec Val} (h : ∀ n a, Local (dext n a)) :
    ∀ ts : List Ty, Local (decTuple dext ts)
  | [] => by simp only [decTuple]; exact Local.ok _
  | t :: ts => by
    simp only [decTuple]
    exact (decTy_local h false t).bind fun v => (decTuple_local h ts).map _
end

theorem fieldLoop_local {dec : Ty → Dec Val} (h : ∀ t, Local (dec t)) (fs : List Field) (n : Nat)
    (slots : List (Option Val)) : Local (fieldLoop dec fs n slots) := by
  induction n generalizing slots with
  | zero => exact Local.hang
  | succ n ih =>
    simp only [fieldLoop]
    apply decId_local.bind
    intro id
    split
    · exact Local.ok _
    · split
      · split
        · exact (h _).bind fun v => ih _
        · exact Local.panic
      · exact (decSkip_local _).bind fun _ => ih _

/-! ### agreement on short inputs -/

/-- The decoders agree on all inputs shorter than `n`. -/
def Agree {α : Type} (n : Nat) (d₁ d₂ : Dec α) : Prop := ∀ r, r.length < n → d₁ r = d₂ r

theorem Agree.rfl {α : Type} {n : Nat} {d : Dec α} : Agree n d d := fun _ _ => Eq.refl _

theorem Agree.map {α β : Type} {n : Nat} {d₁ d₂ : Dec α} (h : Agree n d₁ d₂) (f : α → β) :
    Agree n (fun r => (d₁ r).map f) (fun r => (d₂ r).map f) := fun r hr => by dsimp only; rw [h r hr]

theorem Agree.bind {α β : Type} {n : Nat} {d₁ d₂ : Dec α} {k₁ k₂ : α → Dec β} (hl : Local d₁)
    (h : Agree n d₁ d₂) (hk : ∀ a, Agree n (k₁ a) (k₂ a)) :
    Agree n (fun r => (d₁ r).bind k₁) (fun r => (d₂ r).bind k₂) := fun r hr => by
  dsimp only
  rw [← h r hr]
  cases hd : d₁ r with
  | ok v r' => exact hk v r' (by have := hl.suffix hd; omega)
  | _ => simp

theorem decodeMany_agree {α : Type} {n : Nat} {d₁ d₂ : Dec α} (hl : Local d₁) (h : Agree n d₁ d₂)
    (k : Nat) : Agree n (decodeMany d₁ k) (decodeMany d₂ k) := by
  induction k with
  | zero => intro r _; cases r <;> simp [decodeMany]
  | succ k ih =>
    intro r hr
    cases r with
    | nil => simp [decodeMany]
    | cons b r =>
      simp only [decodeMany]
      exact Agree.bind hl h (fun v => (ih.map (v :: ·))) (b :: r) hr

theorem decodeUpTo_agree {α : Type} {n : Nat} {d₁ d₂ : Dec α} (hl : Local d₁) (h : Agree n d₁ d₂)
    (k : Nat) : Agree n (decodeUpTo d₁ k) (decodeUpTo d₂ k) := by
  induction k with
  | zero => intro r _; simp [decodeUpTo]
  | succ k ih =>
    intro r hr
    cases r with
    | nil => simp [decodeUpTo]
    | cons b r =>
      simp only [decodeUpTo]
      exact Agree.bind hl h (fun v => (ih.map (v :: ·))) (b :: r) hr

theorem decPrefixed_agree {β : Type} {n : Nat} {k₁ k₂ : Bytes → Bytes → Res β}
    (h : ∀ body rest : Bytes, body.length < n → k₁ body rest = k₂ body rest) :
    Agree n (decPrefixed k₁) (decPrefixed k₂) := by
  intro r hr
  unfold decPrefixed
  cases hd : decUint 64 r with
  | ok len r1 =>
    simp only [Res.bind_ok]
    split
    · rfl
    · apply h
      have := (decUint_local 64).suffix hd
      rw [List.length_take]; omega
  | _ => rfl

theorem decPrefixedNz_agree {β : Type} {n : Nat} {k₁ k₂ : Bytes → Bytes → Res β}
    (h : ∀ body rest : Bytes, body.length < n → k₁ body rest = k₂ body rest) :
    Agree n (decPrefixedNz k₁) (decPrefixedNz k₂) := by
  intro r hr
  unfold decPrefixedNz
  cases hd : decUint 64 r with
  | ok len r1 =>
    simp only [Res.bind_ok]
    split
    · rfl
    · split
      · rfl
      · apply h
        have := (decUint_local 64).suffix hd
        rw [List.length_take]; omega
  | _ => rfl

theorem decWindow_agree {α : Type} {n : Nat} {d₁ d₂ : Dec α} (hl : Local d₁) (h : Agree n d₁ d₂)
    (body rest : Bytes) (hb : body.length < n) : decWindow d₁ body rest = decWindow d₂ body rest := by
  unfold decWindow
  rw [decodeMany_agree hl h _ body hb]

theorem decEntry_agree {κ ν : Type} {n : Nat} {k₁ k₂ : Dec κ} {v₁ v₂ : Dec ν} (hlk : Local k₁)
    (hlv : Local v₁) (hk : Agree n k₁ k₂) (hv : Agree n v₁ v₂) :
    Agree n (decEntry k₁ v₁) (decEntry k₂ v₂) :=
  Agree.bind hlk hk fun _ => Agree.bind hlv hv fun _ => Agree.rfl

theorem decVec_agree {α : Type} {n : Nat} {d₁ d₂ : Dec α} (hl : Local d₁) (h : Agree n d₁ d₂) :
    Agree n (decVec d₁) (decVec d₂) := decPrefixed_agree (decWindow_agree hl h)

theorem decNonZeroVec_agree {α : Type} {n : Nat} {d₁ d₂ : Dec α} (hl : Local d₁) (h : Agree n d₁ d₂) :
    Agree n (decNonZeroVec d₁) (decNonZeroVec d₂) :=
  Agree.bind (decPrefixedNz_local (decWindow_windowed _)) (decPrefixedNz_agree (decWindow_agree hl h))
    fun _ => Agree.rfl

theorem decOption_agree {α : Type} {n : Nat} {d₁ d₂ : Dec α} (h : Agree n d₁ d₂) :
    Agree n (decOption d₁) (decOption d₂) :=
  Agree.bind decU8_local Agree.rfl fun b => by
    split
    · exact h.map _
    · exact Agree.rfl

theorem decArray_agree {α : Type} {n m : Nat} {d₁ d₂ : Dec α} (hl : Local d₁) (h : Agree n d₁ d₂) :
    Agree n (decArray m d₁) (decArray m d₂) :=
  decPrefixed_agree fun body rest hb => by rw [decodeUpTo_agree hl h _ body hb]

section
variable {d₁ d₂ : List String → List Ty → Dec Val} {n : Nat}
mutual
theorem decTy_agree (hl : ∀ a b, Local (d₁ a b)) (h : ∀ a b, Agree n (d₁ a b) (d₂ a b)) :
    ∀ (root : Bool) (t : Ty), Agree n (decTy d₁ root t) (decTy d₂ root t)
  | _, .prim p => by simp only [decTy]; exact Agree.rfl
  | _, .vec t => by
    simp only [decTy]; exact (decVec_agree (decTy_local hl _ _) (decTy_agree hl h _ t)).map _
  | _, .hashMap k v => by
    simp only [decTy]
    exact Agree.map (Agree.map (decPrefixed_agree (decWindow_agree
      (decEntry_local (decTy_local hl _ _) (decTy_local hl _ _))
      (decEntry_agree (decTy_local hl _ _) (decTy_local hl _ _) (decTy_agree hl h _ k)
        (decTy_agree hl h _ v)))) toMap) _
  | _, .hashSet t => by
    simp only [decTy]
    exact Agree.map (Agree.map (decVec_agree (decTy_local hl _ _) (decTy_agree hl h _ t)) toSet) _
  | _, .option t => by simp only [decTy]; exact (decOption_agree (decTy_agree hl h _ t)).map _
  | _, .nonZero (.prim p) => by simp only [decTy]; exact Agree.rfl
  | _, .nonZero (.vec t) => by
    simp only [decTy]; exact (decNonZeroVec_agree (decTy_local hl _ _) (decTy_agree hl h _ t)).map _
  | _, .nonZero (.hashMap k v) => by
    simp only [decTy]
    exact Agree.map (Agree.bind (decPrefixedNz_local (decWindow_windowed _)) (decPrefixedNz_agree (decWindow_agree
      (decEntry_local (decTy_local hl _ _) (decTy_local hl _ _))
      (decEntry_agree (decTy_local hl _ _) (decTy_local hl _ _) (decTy_agree hl h _ k)
        (decTy_agree hl h _ v)))) fun _ => Agree.rfl) _
  | _, .nonZero (.hashSet t) => by
    simp only [decTy]
    exact Agree.map (Agree.bind (decPrefixedNz_local (decWindow_windowed _)) (decPrefixedNz_agree
      (decWindow_agree (decTy_local hl _ _) (decTy_agree hl h _ t))) fun _ => Agree.rfl) _
  | _, .nonZero (.option _) => by simp only [decTy]; exact Agree.rfl
  | _, .nonZero (.nonZero _) => by simp only [decTy]; exact Agree.rfl
  | _, .nonZero (.tuple _) => by simp only [decTy]; exact Agree.rfl
  | _, .nonZero (.array _ _) => by simp only [decTy]; exact Agree.rfl
  | _, .nonZero (.ext _ _) => by simp only [decTy]; exact Agree.rfl
  | _, .nonZero (.param _) => by simp only [decTy]; exact Agree.rfl
  | _, .nonZero (.inst _) => by simp only [decTy]; exact Agree.rfl
  | root, .tuple ts => by
    simp only [decTy]; split
    · split
      · exact Agree.bind (decUint_local 64) Agree.rfl fun _ => (decTuple_agree hl h ts).map _
      · exact (decTuple_agree hl h ts).map _
    · exact Agree.rfl
  | _, .array t m => by
    simp only [decTy]; exact (decArray_agree (decTy_local hl _ _) (decTy_agree hl h _ t)).map _
  | _, .ext a b => by simp only [decTy]; exact h a b
  | _, .param _ => by simp only [decTy]; exact Agree.rfl
  | _, .inst t => by simp only [decTy]; exact decTy_agree hl h false t
theorem decTuple_agree (hl : ∀ a b, Local (d₁ a b)) (h : ∀ a b, Agree n (d₁ a b) (d₂ a b)) :
    ∀ ts : List Ty, Agree n (decTuple d₁ ts) (decTuple d₂ ts)
  | [] => by simp only [decTuple]; exact Agree.rfl
  | t :: ts => by
    simp only [decTuple]
    exact Agree.bind (decTy_local hl _ _) (decTy_agree hl h false t) fun v => (decTuple_agree hl h ts).map _
end
end

theorem decId_consumes {r : Bytes} {v : FieldId} {r' : Bytes} (h : decId r = .ok v r') :
    r'.length < r.length := by
  unfold decId at h
  obtain ⟨raw, s, h1, h2⟩ := Res.bind_eq_ok.1 h
  have := decUint_consumes h1
  split at h2
  · simp only [Res.ok.injEq] at h2
    rw [← h2.2]; exact this
  · simp at h2

/-- The loop does not depend on its fuel, nor on what the field decoders do on longer inputs. -/
theorem fieldLoop_agree {dec₁ dec₂ : Ty → Dec Val} (hl : ∀ t, Local (dec₁ t)) (fs : List Field)
    (n m : Nat) (slots : List (Option Val)) (r : Bytes) (hn : r.length < n) (hm : r.length < m)
    (h : ∀ t, Agree r.length (dec₁ t) (dec₂ t)) :
    fieldLoop dec₁ fs n slots r = fieldLoop dec₂ fs m slots r := by
  induction n generalizing m slots r with
  | zero => omega
  | succ n ih =>
    obtain ⟨m, rfl⟩ : ∃ k, m = k + 1 := ⟨m - 1, by omega⟩
    simp only [fieldLoop]
    cases hd : decId r with
    | ok id r1 =>
      have hc := decId_consumes hd
      simp only [Res.bind_ok]
      split
      · rfl
      · split
        · split
          · rw [← h _ r1 hc]
            cases hv : dec₁ _ r1 with
            | ok v r2 =>
              have := (hl _).suffix hv
              simp only [Res.bind_ok]
              exact ih m _ r2 (by omega) (by omega) fun t s hs => h t s (by omega)
            | _ => rfl
          · rfl
        · cases hv : decSkip id.encoding r1 with
          | ok v r2 =>
            have := (decSkip_local _).suffix hv
            simp only [Res.bind_ok]
            exact ih m _ r2 (by omega) (by omega) fun t s hs => h t s (by omega)
          | _ => rfl
    | _ => rfl

theorem decFields_eq {dec : Ty → Dec Val} (hl : ∀ t, Local (dec t)) (fs : Fields) (r : Bytes) (n : Nat)
    (hn : r.length < n) : decFields dec fs r =
      if fs.kind = .unit then .ok [] r
      else (fieldLoop dec fs.fields n (fs.fields.map fun _ => none) r).bind fun slots r =>
        match assigns fs.kind fs.fields slots with
        | .ok vs => .ok vs r
        | .error e => .err e := by
  unfold decFields
  split
  · rfl
  · rw [fieldLoop_agree hl fs.fields (r.length + 1) n _ r (by omega) hn fun _ => Agree.rfl]
    rfl

theorem decFields_local {dec : Ty → Dec Val} (hl : ∀ t, Local (dec t)) (fs : Fields) :
    Local (decFields dec fs) := by
  intro r v r' h
  have key : ∀ n, Local (fun r => if fs.kind = .unit then .ok [] r
      else (fieldLoop dec fs.fields n (fs.fields.map fun _ => none) r).bind fun slots r =>
        match assigns fs.kind fs.fields slots with
        | .ok vs => .ok vs r
        | .error e => (.err e : Res (List Val))) := by
    intro n
    by_cases hk : fs.kind = .unit
    · simp only [hk, if_true]; exact Local.ok _
    · simp only [hk, if_false]
      apply (fieldLoop_local hl _ _ _).bind
      intro slots
      split
      · exact Local.ok _
      · exact Local.err _
  have h1 := h
  rw [decFields_eq hl fs r (r.length + 1) (by omega)] at h1
  obtain ⟨c, rfl, hc⟩ := key _ _ _ _ h1
  refine ⟨c, rfl, fun s => ?_⟩
  have hN := decFields_eq hl fs (c ++ r') ((c ++ r').length + (c ++ s).length + 1) (by omega)
  rw [hN] at h
  obtain ⟨c', hc', hcs⟩ := key _ _ _ _ h
  have := List.append_cancel_right hc'
  subst this
  rw [decFields_eq hl fs (c ++ s) ((c ++ r').length + (c ++ s).length + 1) (by omega)]
  exact hcs s

theorem decDef_local {dec : Ty → Dec Val} (hl : ∀ t, Local (dec t)) (args : List Ty) (d : Def) :
    Local (decDef dec args d) := by
  cases d with
  | struct fs => exact (decFields_local hl _).map _
  | enum vars =>
    simp only [decDef]
    apply (decUint_local 32).bind
    intro id
    split
    · split
      · exact (decFields_local hl _).map _
      · exact Local.panic
    · exact Local.err _

theorem decExt_local (env : Env) (n : Nat) (name : List String) (args : List Ty) :
    Local (decExt env n name args) := by
  induction n generalizing name args with
  | zero => exact Local.hang
  | succ n ih =>
    simp only [decExt]
    split
    · exact decDef_local (fun t => decTy_local ih _ t) _ _
    · exact Local.panic

theorem decFields_agree {dec₁ dec₂ : Ty → Dec Val} (hl : ∀ t, Local (dec₁ t)) (fs : Fields) (r : Bytes)
    (h : ∀ t, Agree r.length (dec₁ t) (dec₂ t)) : decFields dec₁ fs r = decFields dec₂ fs r := by
  unfold decFields
  split
  · rfl
  · rw [fieldLoop_agree hl fs.fields (r.length + 1) (r.length + 1) _ r (by omega) (by omega) h]

theorem decDef_agree {dec₁ dec₂ : Ty → Dec Val} (hl : ∀ t, Local (dec₁ t)) (args : List Ty) (d : Def)
    (r : Bytes) (h : ∀ t, Agree r.length (dec₁ t) (dec₂ t)) :
    decDef dec₁ args d r = decDef dec₂ args d r := by
  cases d with
  | struct fs => simp only [decDef]; rw [decFields_agree hl _ r h]
  | enum vars =>
    simp only [decDef, decVariantId]
    cases hd : decUint 32 r with
    | ok id r1 =>
      simp only [Res.bind_ok]
      split
      · split
        · rw [decFields_agree hl _ r1 fun t s hs => h t s (by have := decUint_consumes hd; omega)]
        · rfl
      · rfl
    | _ => rfl

/-- Fuel above the number of available bytes is enough: the outcome no longer depends on it. -/
theorem decExt_fuel (env : Env) (n m : Nat) (name : List String) (args : List Ty) (r : Bytes)
    (hn : r.length < n) (hm : r.length < m) : decExt env n name args r = decExt env m name args r := by
  induction n generalizing m name args r with
  | zero => omega
  | succ n ih =>
    obtain ⟨m, rfl⟩ : ∃ k, m = k + 1 := ⟨m - 1, by omega⟩
    cases henv : env name with
    | none => simp only [decExt, henv]
    | some d =>
      simp only [decExt, henv]
      apply decDef_agree (fun t => decTy_local (decExt_local env n) _ t)
      intro t
      apply decTy_agree (decExt_local env n)
      intro a b s hs
      exact ih m a b s (by omega) (by omega)

theorem decTy_fuel (env : Env) (n m : Nat) (root : Bool) (t : Ty) (r : Bytes)
    (hn : r.length < n) (hm : r.length < m) :
    decTy (decExt env n) root t r = decTy (decExt env m) root t r :=
  decTy_agree (n := r.length + 1) (decExt_local env n)
    (fun a b s hs => decExt_fuel env n m a b s (by omega) (by omega)) root t r (by omega)

theorem local_of_fuel {α : Type} {d : Dec α} {f : Nat → Dec α} (hf : ∀ n, Local (f n))
    (h : ∀ r n, r.length < n → d r = f n r) : Local d := by
  intro r v r' hr
  rw [h r _ (Nat.lt_succ_self _)] at hr
  obtain ⟨c, rfl, hc⟩ := hf _ _ _ _ hr
  refine ⟨c, rfl, fun s => ?_⟩
  have h1 : f ((c ++ r').length + (c ++ s).length + 1) (c ++ r') = .ok v r' := by
    rw [← h _ _ (by omega), h _ _ (Nat.lt_succ_self _)]; exact hr
  obtain ⟨c', hc', hcs⟩ := hf _ _ _ _ h1
  have := List.append_cancel_right hc'
  subst this
  rw [h (c ++ s) ((c ++ r').length + (c ++ s).length + 1) (by omega)]
  exact hcs s

theorem decodeExt_local (env : Env) (name : List String) (args : List Ty) :
    Local (decodeExt env name args) :=
  local_of_fuel (f := fun n => decExt env n name args) (fun n => decExt_local env n name args)
    fun r n hn => decExt_fuel env _ n name args r (Nat.lt_succ_self _) hn

theorem decode_local (env : Env) (root : Bool) (t : Ty) : Local (decode env root t) :=
  decTy_local (decodeExt_local env) root t

/-- The interpreter is the generated code: a named type is decoded by the body of its definition, whose
fields are decoded recursively. -/
theorem decodeExt_eq (env : Env) (name : List String) (args : List Ty) :
    decodeExt env name args =
      match env name with
      | some d => decDef (decode env true) args d
      | none => fun _ => .panic := by
  funext r
  unfold decodeExt
  cases henv : env name with
  | none => simp only [decExt, henv]
  | some d =>
    simp only [decExt, henv]
    apply decDef_agree (fun t => decTy_local (decExt_local env _) _ t)
    intro t
    apply decTy_agree (decExt_local env _)
    intro a b s hs
    exact decExt_fuel env _ _ a b s hs (Nat.lt_succ_self _)

end Mabo.Codegen
