import Verif.Spec.Size
import Verif.RoundTrip
/-! `size()` against the number of bytes written. -/
namespace Mabo.Codegen
open Mabo.Buf Mabo.Varint Mabo.Schema Mabo.Spec

theorem sizeLen_pos (n : Nat) : 0 < sizeLen n := sizeU_pos _

theorem sizeLen_le_iff {n : Nat} (h : n < 2 ^ 64) (k : Nat) : sizeLen n ≤ k + 1 ↔ n < 128 ^ (k + 1) := by
  unfold sizeLen
  rw [sizeU_le_iff, BitVec.toNat_ofNat, Nat.mod_eq_of_lt h]

theorem sizeLen_mono {n m : Nat} (h : n ≤ m) (hm : m < 2 ^ 64) : sizeLen n ≤ sizeLen m := by
  have hp := sizeLen_pos m
  have h1 := (sizeLen_le_iff hm (sizeLen m - 1)).1 (by omega)
  have h2 := (sizeLen_le_iff (n := n) (by omega) (sizeLen m - 1)).2 (by omega)
  omega

theorem sizeRep_eq (p : Rep) (hw : Rep.wide p) (v : Val) (h : p.has v = true) :
    sizeRep p v = (encRep p v).length := by
  cases p <;> cases v <;> simp only [Rep.has, Bool.false_eq_true] at h <;> simp only [sizeRep, encRep]
  · rfl
  · rfl
  · exact sizeU_eq_length hw _
  · exact sizeU_eq_length hw _
  · exact (beBytes_length 4 _).symm
  · exact (beBytes_length 8 _).symm
  · simp [sizeString, encString, sizeBytes, encBytes, encLen_length]
  · simp [sizeBytes, encBytes, encLen_length]

theorem encRep_pos (p : Rep) (hw : Rep.wide p) (v : Val) (h : p.has v = true) : 0 < (encRep p v).length := by
  cases p <;> cases v <;> simp only [Rep.has, Bool.false_eq_true] at h <;> simp only [encRep]
  · exact Nat.one_pos
  · exact Nat.one_pos
  · exact encodeU_length_pos hw _
  · exact encodeI_length_pos hw _
  · rw [encF32, beBytes_length]; omega
  · rw [encF64, beBytes_length]; omega
  · rw [encString, encBytes_length, encLen_length]; have := sizeLen_pos (strBytes ‹String›).length; omega
  · rw [encBytes_length, encLen_length]; have := sizeLen_pos (‹List UInt8›).length; omega

theorem noEmpty_inst (env : Env) (t : Ty) (v : Val) : noEmpty env (.inst t) v = noEmpty env t v := by
  rw [noEmpty.eq_def, noEmpty.eq_def env t v]; simp only [Ty.strip]

theorem exactSize_inst (env : Env) (t : Ty) (v : Val) : exactSize env (.inst t) v = exactSize env t v := by
  rw [exactSize.eq_def, exactSize.eq_def env t v]; simp only [Ty.strip]

theorem enc_root {env : Env} {t : Ty} (h : isTuple t = false) (v : Val) :
    enc env true t v = enc env false t v := by
  rw [enc.eq_def, enc.eq_def env false t v]
  cases t <;> simp only [isTuple, Bool.true_eq_false] at h <;> simp only [Ty.strip]

theorem enc_root_tuple (env : Env) (ts : List Ty) (xs : List Val) :
    enc env true (.tuple ts) (.list xs) = encLen (sizeTuple env ts xs) ++ enc env false (.tuple ts) (.list xs) := by
  rfl

theorem enc_false_le_root (env : Env) (t : Ty) (v : Val) :
    (enc env false t v).length ≤ (enc env true t v).length := by
  cases h : isTuple t with
  | false => rw [enc_root h]; exact Nat.le_refl _
  | true =>
    cases t <;> simp only [isTuple, Bool.false_eq_true] at h
    cases v with
    | list xs => rw [enc_root_tuple, List.length_append]; omega
    | _ => rw [enc.eq_def]; simp [Ty.strip]

/-- Accounting of one value. -/
def SZ (env : Env) (v : Val) : Prop :=
  ∀ t, wt env t v = true → noEmpty env t v = true → (enc env false t v).length < 2 ^ 64 →
    size env t v ≤ (enc env false t v).length ∧
    (size env t v = (enc env false t v).length ↔ exactSize env t v = true) ∧
    (enc env false t v ≠ [] → 0 < size env t v)

def SZt (env : Env) (v : Val) (t : Ty) : Prop :=
  wt env t v = true → noEmpty env t v = true → (enc env false t v).length < 2 ^ 64 →
    size env t v ≤ (enc env false t v).length ∧
    (size env t v = (enc env false t v).length ↔ exactSize env t v = true) ∧
    (enc env false t v ≠ [] → 0 < size env t v)

theorem sz_of_core {env : Env} {v : Val} (h : ∀ t, core t → SZt env v t) : ∀ t, SZt env v t
  | .inst t => by
    intro hw hf hl
    rw [wt_inst] at hw
    rw [noEmpty_inst] at hf
    rw [enc_inst] at hl ⊢
    rw [size_inst, exactSize_inst]
    exact sz_of_core h t hw hf hl
  | .prim p => h _ trivial
  | .vec _ => h _ trivial
  | .hashMap _ _ => h _ trivial
  | .hashSet _ => h _ trivial
  | .option _ => h _ trivial
  | .nonZero _ => h _ trivial
  | .tuple _ => h _ trivial
  | .array _ _ => h _ trivial
  | .ext _ _ => h _ trivial
  | .param _ => h _ trivial

theorem sz_prim {env : Env} {v : Val} {t : Ty} {p : Prim} (ht : t.strip = .prim p) : SZt env v t := by
  intro hw _ _
  have h : p.rep.has v = true := by
    rw [wt.eq_def] at hw
    simp only [ht, Bool.and_eq_true] at hw
    exact hw.2
  have he : enc env false t v = encRep p.rep v := by rw [enc.eq_def]; simp only [ht]
  have hs : size env t v = sizeRep p.rep v := by rw [size.eq_def]; simp only [ht]
  have hx : exactSize env t v = true := by rw [exactSize.eq_def]; simp only [ht]
  rw [he, hs, hx, sizeRep_eq _ (Prim.rep_wide p) v h]
  exact ⟨Nat.le_refl _, by simp, fun _ => encRep_pos _ (Prim.rep_wide p) v h⟩

theorem sz_leaf {env : Env} {v : Val} (hl : ∀ xs, v ≠ .list xs) (hs : ∀ x, v ≠ .some x)
    (hst : ∀ xs, v ≠ .struct xs) (hen : ∀ i xs, v ≠ .enum i xs) (t : Ty) (hc : core t) : SZt env v t := by
  cases t with
  | prim p => exact sz_prim rfl
  | inst t => exact hc.elim
  | option t =>
    intro hw hf hlen
    rcases wt_option_cases hw with rfl | ⟨x, rfl, -⟩
    · exact ⟨Nat.le_refl _, by rw [exactSize.eq_def]; simp [size, enc, Ty.strip], fun _ => Nat.one_pos⟩
    · exact absurd rfl (hs x)
  | nonZero t =>
    cases t with
    | prim p => exact sz_prim rfl
    | _ =>
      intro hw
      have := wt_nz hw
      rw [wt.eq_def] at hw
      cases v <;> simp_all [Ty.strip, Ty.nzArg, Val.nonzero]
  | _ =>
    intro hw
    rw [wt.eq_def] at hw
    cases v <;> simp_all [Ty.strip]

theorem sz_some {env : Env} {x : Val} (ih : ∀ t, SZt env x t) (t : Ty) (hc : core t) : SZt env (.some x) t := by
  cases t with
  | prim p => exact sz_prim rfl
  | inst t => exact hc.elim
  | option t =>
    intro hw hf hlen
    have hw' : wt env t x = true := by simpa [wt, Ty.strip, Ty.nzOk, Ty.isNz] using hw
    have hf' : noEmpty env t x = true := by simpa [noEmpty, Ty.strip] using hf
    have he : enc env false (.option t) (.some x) = 1 :: enc env false t x := by
      rw [enc.eq_def]; simp only [Ty.strip]
    have hs : size env (.option t) (.some x) = 1 + size env t x := by rw [size.eq_def]; simp only [Ty.strip]
    have hx : exactSize env (.option t) (.some x) = exactSize env t x := by
      rw [exactSize.eq_def]; simp only [Ty.strip]
    rw [he, List.length_cons] at hlen
    rw [he, hs, hx, List.length_cons]
    obtain ⟨a, b, c⟩ := ih t hw' hf' (by omega)
    exact ⟨by omega, by rw [← b]; omega, fun _ => by omega⟩
  | nonZero t =>
    intro hw
    simpa [Val.nonzero] using (wt_nz hw).2
  | _ =>
    intro hw
    rw [wt.eq_def] at hw
    simp [Ty.strip] at hw

def ElemsSZ (env : Env) (xs : List Val) : Prop :=
  ∀ t, wtList env t xs = true → noEmptyList env t xs = true → (encList env t xs).length < 2 ^ 64 →
    xs.length ≤ sizeList env t xs ∧ sizeList env t xs ≤ (encList env t xs).length ∧
    (sizeList env t xs = (encList env t xs).length ↔ exactList env t xs = true)

def EntriesSZ (env : Env) (xs : List Val) : Prop :=
  ∀ k w, wtEntries env k w xs = true → noEmptyEntries env k w xs = true →
    (encEntries env k w xs).length < 2 ^ 64 →
    xs.length ≤ sizeEntries env k w xs ∧ sizeEntries env k w xs ≤ (encEntries env k w xs).length ∧
    (sizeEntries env k w xs = (encEntries env k w xs).length ↔ exactEntries env k w xs = true)

def TupleSZ (env : Env) (xs : List Val) : Prop :=
  ∀ ts, wtTuple env ts xs = true → noEmptyTuple env ts xs = true → (encTuple env ts xs).length < 2 ^ 64 →
    sizeTuple env ts xs ≤ (encTuple env ts xs).length ∧
    (sizeTuple env ts xs = (encTuple env ts xs).length ↔ exactTuple env ts xs = true) ∧
    (encTuple env ts xs ≠ [] → 0 < sizeTuple env ts xs)

def FieldsSZ (env : Env) (vs : List Val) : Prop :=
  ∀ fs, (∀ f ∈ fs, idOk f.id) → wtFields env fs vs = true → noEmptyFields env fs vs = true →
    (encFields env fs vs).length < 2 ^ 64 →
    sizeFields env fs vs ≤ (encFields env fs vs).length ∧
    (sizeFields env fs vs = (encFields env fs vs).length ↔ exactFields env fs vs = true)

/-- The arithmetic of one collection: `n` elements, announced `S` bytes, real `L` bytes. -/
theorem coll_size {n S L : Nat} (h1 : n ≤ S) (h2 : S ≤ L) (hL : L < 2 ^ 64) {b : Bool} (hb : S = L ↔ b = true) :
    sizeLen n + S ≤ sizeLen S + L ∧
    (sizeLen n + S = sizeLen S + L ↔ (samePrefix n L && b) = true) := by
  have hm := sizeLen_mono h1 (by omega)
  refine ⟨by omega, ?_⟩
  rw [Bool.and_eq_true, ← hb, samePrefix, decide_eq_true_eq]
  constructor
  · intro h
    have : S = L := by omega
    subst this
    exact ⟨by omega, rfl⟩
  · rintro ⟨h, rfl⟩
    omega

theorem sz_coll {env : Env} {xs : List Val} {t : Ty} (body : Bytes) (S : Nat) (b : Bool)
    (h1 : xs.length ≤ S) (h2 : S ≤ body.length) (h3 : S = body.length ↔ b = true)
    (hs : size env t (.list xs) = sizeLen xs.length + S)
    (he : enc env false t (.list xs) = encLen S ++ body)
    (hx : exactSize env t (.list xs) = (samePrefix xs.length body.length && b))
    (hl : (enc env false t (.list xs)).length < 2 ^ 64) :
    size env t (.list xs) ≤ (enc env false t (.list xs)).length ∧
    (size env t (.list xs) = (enc env false t (.list xs)).length ↔ exactSize env t (.list xs) = true) ∧
    (enc env false t (.list xs) ≠ [] → 0 < size env t (.list xs)) := by
  rw [he, List.length_append, encLen_length] at hl
  have h := coll_size h1 h2 (by omega) h3
  rw [he, hs, hx, List.length_append, encLen_length]
  have := sizeLen_pos xs.length
  exact ⟨h.1, h.2, fun _ => by omega⟩

theorem sz_list {env : Env} {xs : List Val} (h1 : ElemsSZ env xs) (h2 : EntriesSZ env xs)
    (h3 : TupleSZ env xs) (t : Ty) (_hc : core t) : SZt env (.list xs) t := by
  have key : ∀ t', t.strip = t' → SZt env (.list xs) t := by
    intro t' ht' hw hf hl
    rw [wt.eq_def] at hw
    rw [noEmpty.eq_def] at hf
    have hs : size env t (.list xs) = _ := size.eq_def env t (.list xs)
    have he : enc env false t (.list xs) = _ := enc.eq_def env false t (.list xs)
    have hx : exactSize env t (.list xs) = _ := exactSize.eq_def env t (.list xs)
    simp only [ht', Bool.and_eq_true] at hw hf hs he hx
    cases t' with
    | prim p =>
      exact sz_prim ht' (by rw [wt.eq_def]; simp only [ht', Bool.and_eq_true]; exact hw)
        (by rw [noEmpty.eq_def]; simp only [ht']) hl
    | vec t' =>
      simp only at hw hf hs he hx
      have hl' := hl
      rw [he, List.length_append] at hl'
      obtain ⟨a, b, c⟩ := h1 t' hw.2 hf (by omega)
      exact sz_coll _ _ _ a b c hs he hx hl
    | hashSet t' =>
      simp only [Bool.and_eq_true] at hw hf hs he hx
      have hl' := hl
      rw [he, List.length_append] at hl'
      obtain ⟨a, b, c⟩ := h1 t' hw.2.1 hf (by omega)
      exact sz_coll _ _ _ a b c hs he hx hl
    | array t' n =>
      simp only [Bool.and_eq_true] at hw hf hs he hx
      have hl' := hl
      rw [he, List.length_append] at hl'
      obtain ⟨a, b, c⟩ := h1 t' hw.2.2 hf (by omega)
      exact sz_coll _ _ _ a b c hs he hx hl
    | hashMap k w =>
      simp only [Bool.and_eq_true] at hw hf hs he hx
      have hl' := hl
      rw [he, List.length_append] at hl'
      obtain ⟨a, b, c⟩ := h2 k w hw.2.1 hf (by omega)
      exact sz_coll _ _ _ a b c hs he hx hl
    | tuple ts =>
      simp only [Bool.and_eq_true] at hw hf hs he hx
      rw [he] at hl
      rw [hs, he, hx]
      exact h3 ts hw.2.2 hf hl
    | _ => simp at hw
  exact key _ rfl

theorem endMarker_size : (encodeU (BitVec.ofNat 32 endMarker)).length = endMarkerSize := by decide

theorem sz_body {env : Env} {vs : List Val} (h4 : FieldsSZ env vs) (fs : Fields) (args : List Ty)
    (hok : FieldsOk fs.fields) (hu : fs.unitOk = true)
    (hw : wtFields env (fs.subst args).fields vs = true)
    (hf : noEmptyFields env (fs.subst args).fields vs = true) (b : Bytes) (n : Nat)
    (hb : b = if fs.kind = .unit then []
      else encFields env (fs.subst args).fields vs ++ encodeU (BitVec.ofNat 32 endMarker))
    (hn : n = if fs.kind = .unit then 0 else sizeFields env (fs.subst args).fields vs + endMarkerSize)
    (hl : b.length < 2 ^ 64) :
    n ≤ b.length ∧ (n = b.length ↔ exactFields env (fs.subst args).fields vs = true) ∧ (b ≠ [] → 0 < n) := by
  by_cases hk : fs.kind = .unit
  · rw [if_pos hk] at hb hn
    subst hb hn
    have hfs : fs.fields = [] := by
      simpa [Fields.unitOk, hk] using hu
    have : (fs.subst args).fields = [] := by simp [Fields.subst, hfs]
    rw [this]
    cases vs <;> simp [exactFields]
  · rw [if_neg hk] at hb hn
    subst hb hn
    rw [List.length_append] at hl ⊢
    rw [endMarker_size] at hl ⊢
    obtain ⟨a, b⟩ := h4 _ (subst_idOk hok).2 hw hf (by omega)
    exact ⟨by omega, by rw [← b]; omega, fun _ => by unfold endMarkerSize; omega⟩

theorem sz_struct {env : Env} (hE : EnvOk env) {vs : List Val} (h4 : FieldsSZ env vs) (t : Ty)
    (hc : core t) : SZt env (.struct vs) t := by
  cases t with
  | prim p => exact sz_prim rfl
  | inst t => exact hc.elim
  | nonZero t => intro hw; simpa [Val.nonzero] using (wt_nz hw).2
  | ext name args =>
    intro hw hf hl
    rw [wt.eq_def] at hw
    simp only [Ty.nzOk, Ty.isNz, Ty.strip, Bool.not_false, Bool.true_or, Bool.and_self, Bool.true_and] at hw
    rw [noEmpty.eq_def] at hf; simp only [Ty.strip] at hf
    rw [enc.eq_def] at hl ⊢; simp only [Ty.strip] at hl ⊢
    rw [size.eq_def, exactSize.eq_def]; simp only [Ty.strip]
    cases henv : env name with
    | none => simp [henv] at hw
    | some d =>
      cases d with
      | enum vars => simp [henv] at hw
      | struct fs =>
        simp only [henv, Bool.and_eq_true] at hw hf hl ⊢
        exact sz_body h4 fs args (hE _ _ henv) hw.1 hw.2 hf _ _ rfl rfl hl
  | _ =>
    intro hw
    rw [wt.eq_def] at hw
    simp [Ty.strip] at hw

theorem sz_enum {env : Env} (hE : EnvOk env) {i : Nat} {vs : List Val} (h4 : FieldsSZ env vs) (t : Ty)
    (hc : core t) : SZt env (.enum i vs) t := by
  cases t with
  | prim p => exact sz_prim rfl
  | inst t => exact hc.elim
  | nonZero t => intro hw; simpa [Val.nonzero] using (wt_nz hw).2
  | ext name args =>
    intro hw hf hl
    rw [wt.eq_def] at hw
    simp only [Ty.nzOk, Ty.isNz, Ty.strip, Bool.not_false, Bool.true_or, Bool.and_self, Bool.true_and] at hw
    rw [noEmpty.eq_def] at hf; simp only [Ty.strip] at hf
    rw [enc.eq_def] at hl ⊢; simp only [Ty.strip] at hl ⊢
    rw [size.eq_def, exactSize.eq_def]; simp only [Ty.strip]
    cases henv : env name with
    | none => simp [henv] at hw
    | some d =>
      cases d with
      | struct fs => simp [henv] at hw
      | enum vars =>
        have hok := hE _ _ henv
        cases hv : vars[i]? with
        | none => simp [henv, hv] at hw
        | some var =>
          simp only [henv, hv, Bool.and_eq_true] at hw hf hl ⊢
          rw [List.length_append] at hl ⊢
          have hid : sizeVariantId var.id = (encVariantId var.id).length := sizeU_eq_length (by omega) _
          have hp : 0 < sizeVariantId var.id := sizeU_pos _
          obtain ⟨a, b, -⟩ := sz_body h4 var.fields args (hok.2 _ (List.mem_of_getElem? hv)) hw.1 hw.2 hf _ _
            rfl rfl (by omega)
          rw [hid] at hp ⊢
          exact ⟨by omega, by rw [← b]; omega, fun _ => by omega⟩
  | _ =>
    intro hw
    rw [wt.eq_def] at hw
    simp [Ty.strip] at hw

/-- As `RT2`. -/
def SZ2 (env : Env) (v : Val) : Prop :=
  (∀ t, SZt env v t) ∧ (∀ x, v = .some x → ∀ t, SZt env x t) ∧
  (∀ a b, v = .pair a b → (∀ t, SZt env a t) ∧ ∀ t, SZt env b t)

/-- One field: the value as written (`root = true`). -/
theorem sz_field {env : Env} {v : Val} {t : Ty} (h : SZt env v t) (hw : wt env t v = true)
    (hf : noEmpty env t v = true) (hl : (enc env true t v).length < 2 ^ 64) :
    size env t v ≤ (enc env true t v).length ∧
    (size env t v = (enc env true t v).length ↔ (!isTuple t && exactSize env t v) = true) := by
  have h0 := enc_false_le_root env t v
  obtain ⟨a, b, -⟩ := h hw hf (by omega)
  refine ⟨by omega, ?_⟩
  cases ht : isTuple t with
  | false => rw [enc_root ht, b]; simp
  | true =>
    cases t <;> simp only [isTuple, Bool.false_eq_true] at ht
    cases v with
    | list xs =>
      rw [enc_root_tuple, List.length_append, encLen_length]
      have := sizeLen_pos (sizeTuple env ‹_› xs)
      simp only [Bool.not_true, Bool.false_and, Bool.false_eq_true, iff_false]
      omega
    | _ => rw [wt.eq_def] at hw; simp [Ty.strip] at hw

theorem sz_field_head {env : Env} {f : Field} {v : Val}
    (hf : (match f.ty, v with
     | .option t, .some v => noEmpty env t v
     | .option _, _ => true
     | t, v => noEmpty env t v) = true) (hid : idOk f.id) (h : SZ2 env v) (hw : wt env f.ty v = true)
    (hl : ((chunk env f v).flatMap (fun e => encId e.1.id ++ e.1.body)).length < 2 ^ 64) :
    let n := (match f.ty, v with
     | .option t, .some v => sizeFieldId f.id + size env t v
     | .option _, _ => 0
     | t, v => sizeField f.id (size env t v))
    let x := (match f.ty, v with
     | .option t, .some v => !isTuple t && exactSize env t v
     | .option _, _ => true
     | t, v => !isTuple t && exactSize env t v)
    n ≤ ((chunk env f v).flatMap (fun e => encId e.1.id ++ e.1.body)).length ∧
    (n = ((chunk env f v).flatMap (fun e => encId e.1.id ++ e.1.body)).length ↔ x = true) := by
  have hlen : ∀ m, (encId ⟨f.id, m⟩).length = sizeFieldId f.id :=
    fun m => ((Props.C06_wire_roundtrip ⟨f.id, m⟩ hid.2 []).2).symm
  rcases chunk_cases env f v with ⟨t, ht, ⟨y, rfl, hch⟩ | ⟨hx, hch⟩⟩ | ⟨ho, hft, hch⟩
  · rw [hch] at hl ⊢
    simp only [List.flatMap_cons, List.flatMap_nil, List.append_nil, List.length_append] at hl ⊢
    simp only [ht] at hf hw ⊢
    rcases wt_option_cases hw with h0 | ⟨z, hz, hwz⟩
    · simp at h0
    · simp only [Val.some.injEq] at hz
      subst hz
      obtain ⟨a, b⟩ := sz_field (h.2.1 _ rfl t) hwz hf (by omega)
      rw [hlen]
      exact ⟨by omega, by rw [← b]; omega⟩
  · rw [hch]
    simp only [ht]
    cases v <;> simp at hx ⊢
  · rw [hch] at hl ⊢
    simp only [List.flatMap_cons, List.flatMap_nil, List.append_nil, List.length_append] at hl ⊢
    have hf' : noEmpty env f.ty v = true := by
      cases hty : f.ty <;> rw [hty] at ho <;> simp only [isOption, Bool.true_eq_false] at ho <;>
        simp only [hty] at hf <;> exact hf
    obtain ⟨a, b⟩ := sz_field (h.1 f.ty) hw hf' (by omega)
    rw [hlen]
    cases hty : f.ty <;> rw [hty] at ho a b <;> simp only [isOption, Bool.true_eq_false] at ho <;>
      (simp only [sizeField]; exact ⟨by omega, by rw [← b]; omega⟩)

theorem add_both {n m L₁ L₂ : Nat} {x y : Bool} (a : n ≤ L₁) (b : n = L₁ ↔ x = true) (d : m ≤ L₂)
    (e : m = L₂ ↔ y = true) : n + m ≤ L₁ + L₂ ∧ (n + m = L₁ + L₂ ↔ x = true ∧ y = true) := by
  rw [← b, ← e]; omega

mutual
theorem sz2 {env : Env} (hE : EnvOk env) : ∀ v : Val, SZ2 env v
  | .bool b => ⟨sz_of_core (sz_leaf (by simp) (by simp) (by simp) (by simp)), by simp, by simp⟩
  | .num b => ⟨sz_of_core (sz_leaf (by simp) (by simp) (by simp) (by simp)), by simp, by simp⟩
  | .str b => ⟨sz_of_core (sz_leaf (by simp) (by simp) (by simp) (by simp)), by simp, by simp⟩
  | .bytes b => ⟨sz_of_core (sz_leaf (by simp) (by simp) (by simp) (by simp)), by simp, by simp⟩
  | .none => ⟨sz_of_core (sz_leaf (by simp) (by simp) (by simp) (by simp)), by simp, by simp⟩
  | .pair a b => ⟨sz_of_core (sz_leaf (by simp) (by simp) (by simp) (by simp)), by simp, by
      intro a' b' h
      simp only [Val.pair.injEq] at h
      obtain ⟨rfl, rfl⟩ := h
      exact ⟨(sz2 hE a).1, (sz2 hE b).1⟩⟩
  | .some x => ⟨sz_of_core (sz_some (sz2 hE x).1), by
      intro y h
      simp only [Val.some.injEq] at h
      subst h
      exact (sz2 hE x).1, by simp⟩
  | .list xs => ⟨sz_of_core (sz_list (szLists hE xs).1 (szLists hE xs).2.1 (szLists hE xs).2.2.1),
      by simp, by simp⟩
  | .struct vs => ⟨sz_of_core (sz_struct hE (szLists hE vs).2.2.2), by simp, by simp⟩
  | .enum i vs => ⟨sz_of_core (sz_enum hE (szLists hE vs).2.2.2), by simp, by simp⟩
theorem szLists {env : Env} (hE : EnvOk env) :
    ∀ xs : List Val, ElemsSZ env xs ∧ EntriesSZ env xs ∧ TupleSZ env xs ∧ FieldsSZ env xs
  | [] => by
    refine ⟨?_, ?_, ?_, ?_⟩
    · intro t _ _ _; simp [sizeList, encList, exactList]
    · intro k w _ _ _; simp [sizeEntries, encEntries, exactEntries]
    · intro ts hw hf hl
      cases ts <;> simp [sizeTuple, encTuple, exactTuple]
    · intro fs _ hw hf hl
      cases fs <;> simp [sizeFields, encFields, exactFields]
  | v :: vs => by
    have hv := sz2 hE v
    have hvs := szLists hE vs
    refine ⟨?_, ?_, ?_, ?_⟩
    · intro t hw hf hl
      simp only [wtList, Bool.and_eq_true] at hw
      simp only [noEmptyList, Bool.and_eq_true] at hf
      simp only [encList, List.length_append] at hl
      obtain ⟨a, b, c⟩ := hv.1 t hw.1 hf.1.2 (by omega)
      obtain ⟨d, e, g⟩ := hvs.1 t hw.2 hf.2 (by omega)
      have hp := c (by simpa using hf.1.1)
      simp only [encList, sizeList, exactList, List.length_append, List.length_cons, Bool.and_eq_true]
      rw [← b, ← g]
      omega
    · intro k w hw hf hl
      cases v with
      | pair a' b' =>
        simp only [wtEntries, Bool.and_eq_true] at hw
        simp only [noEmptyEntries, Bool.and_eq_true] at hf
        simp only [encEntries, List.length_append] at hl
        have hab := hv.2.2 _ _ rfl
        obtain ⟨a, b, c⟩ := hab.1 k hw.1.1 hf.1.1.2 (by omega)
        obtain ⟨a1, b1, c1⟩ := hab.2 w hw.1.2 hf.1.2 (by omega)
        obtain ⟨d, e, g⟩ := hvs.2.1 k w hw.2 hf.2 (by omega)
        have hp : 0 < size env k a' + size env w b' := by
          have h0 := hf.1.1.1
          by_cases hka : enc env false k a' = []
          · have : enc env false w b' ≠ [] := by
              intro hwb; rw [hka, hwb] at h0; simp at h0
            have := c1 this
            omega
          · have := c hka
            omega
        simp only [encEntries, sizeEntries, exactEntries, List.length_append, List.length_cons, Bool.and_eq_true]
        rw [← b, ← b1, ← g]
        omega
      | _ => simp [wtEntries] at hw
    · intro ts hw hf hl
      cases ts with
      | nil => simp [wtTuple] at hw
      | cons t ts =>
        simp only [wtTuple, Bool.and_eq_true] at hw
        simp only [noEmptyTuple, Bool.and_eq_true] at hf
        simp only [encTuple, List.length_append] at hl
        obtain ⟨a, b, c⟩ := hv.1 t hw.1 hf.1 (by omega)
        obtain ⟨d, e, g⟩ := hvs.2.2.1 ts hw.2 hf.2 (by omega)
        simp only [encTuple, sizeTuple, exactTuple, List.length_append, Bool.and_eq_true]
        rw [← b, ← e]
        refine ⟨by omega, by omega, ?_⟩
        intro h
        by_cases h1 : enc env false t v = []
        · have : encTuple env ts vs ≠ [] := by
            intro h2; rw [h1, h2] at h; exact h rfl
          have := g this
          omega
        · have := c h1
          omega
    · intro fs hid hw hf hl
      cases fs with
      | nil => simp [wtFields] at hw
      | cons f fs =>
        simp only [wtFields, Bool.and_eq_true] at hw
        rw [encFields_cons, List.length_append] at hl ⊢
        rw [noEmptyFields.eq_def] at hf
        simp only [Bool.and_eq_true] at hf
        rw [sizeFields.eq_def, exactFields.eq_def]
        simp only [Bool.and_eq_true]
        obtain ⟨a, b⟩ := sz_field_head hf.1 (hid f (List.mem_cons_self ..)) hv hw.1 (by omega)
        obtain ⟨d, e⟩ := hvs.2.2.2 fs (fun g hg => hid g (List.mem_cons_of_mem _ hg)) hw.2 hf.2 (by omega)
        exact add_both a b d e
end

end Mabo.Codegen
