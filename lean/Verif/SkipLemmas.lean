import Verif.Spec.Skip
import Verif.Props.Varint
import Verif.ExactLemmas
/-! Skipping what the encoder wrote. -/
namespace Mabo.Codegen
open Mabo.Buf Mabo.Varint Mabo.Schema Mabo.Spec

theorem skipVarint_append (pre : Bytes) (last : UInt8) (s : Bytes) (hp : ∀ b ∈ pre, 128 ≤ b.toNat)
    (hl : last.toNat < 128) : skipVarint (pre ++ [last] ++ s) = .ok () s := by
  induction pre with
  | nil =>
    have : last &&& 0x80 = 0 := (u8_and80 last).2 hl
    simp [skipVarint, this]
  | cons b pre ih =>
    have hb : ¬ (b &&& 0x80 = 0) := by
      rw [u8_and80]
      have := hp b (List.mem_cons_self ..)
      omega
    rw [List.cons_append, List.cons_append, skipVarint, if_neg hb]
    exact ih fun c hc => hp c (List.mem_cons_of_mem _ hc)

theorem skipVarint_encodeU {w : Nat} (hw : VarintWidth w) (v : BitVec w) (s : Bytes) :
    skipVarint (encodeU v ++ s) = .ok () s := by
  obtain ⟨pre, last, he, hp, hl⟩ := (Props.C01_encoding_denotes_value w hw v).1
  rw [he]
  exact skipVarint_append pre last s hp hl

theorem skipFixed_append (b s : Bytes) : skipFixed b.length (b ++ s) = .ok () s := by
  simp [skipFixed]

theorem skipPrefixed {n : Nat} {body s : Bytes} (h : n = body.length) (hl : body.length < 2 ^ 64) :
    decSkip .lengthPrefixed ((encLen n ++ body) ++ s) = .ok () s := by
  subst h
  rw [List.append_assoc]
  simp only [decSkip]
  rw [decPrefixed_enc _ _ _ hl]

theorem skip_prim (p : Prim) (v : Val) (hw : p.rep.has v = true) (hl : (encRep p.rep v).length < 2 ^ 64)
    (s : Bytes) : decSkip (primMarker p) (encRep p.rep v ++ s) = .ok () s := by
  have hpre : ∀ b : Bytes, (encBytes b).length < 2 ^ 64 → decSkip .lengthPrefixed (encBytes b ++ s) = .ok () s := by
    intro b hb
    rw [encBytes_length] at hb
    exact skipPrefixed rfl (by omega)
  have w16 : VarintWidth 16 := by decide
  have w32 : VarintWidth 32 := by decide
  have w64 : VarintWidth 64 := by decide
  have w128 : VarintWidth 128 := by decide
  cases p <;> cases v <;> simp only [Prim.rep, Rep.has, Bool.false_eq_true] at hw <;>
    simp only [Prim.rep, encRep, primMarker, encString] at hl ⊢
  case bool.bool => exact skipFixed_append (encBool _) s
  case u8.num => exact skipFixed_append (encU8 _) s
  case i8.num => exact skipFixed_append (encU8 _) s
  case f32.num n =>
    have := skipFixed_append (encF32 (BitVec.ofNat 32 n)) s
    rwa [encF32, beBytes_length] at this
  case f64.num n =>
    have := skipFixed_append (encF64 (BitVec.ofNat 64 n)) s
    rwa [encF64, beBytes_length] at this
  case u16.num => exact skipVarint_encodeU w16 _ s
  case u32.num => exact skipVarint_encodeU w32 _ s
  case u64.num => exact skipVarint_encodeU w64 _ s
  case u128.num => exact skipVarint_encodeU w128 _ s
  case i16.num => exact skipVarint_encodeU w16 _ s
  case i32.num => exact skipVarint_encodeU w32 _ s
  case i64.num => exact skipVarint_encodeU w64 _ s
  case i128.num => exact skipVarint_encodeU w128 _ s
  all_goals exact hpre _ hl

/-- Collections, anywhere. -/
theorem skip_coll {env : Env} {root : Bool} {t : Ty} {xs : List Val} (hs : ∀ ts, t.strip ≠ .tuple ts)
    (hp : ∀ p, t.strip ≠ .prim p) (hw : wt env t (.list xs) = true)
    (hd : declaredExact env t (.list xs) = true) (hl : (enc env root t (.list xs)).length < 2 ^ 64) (s : Bytes) :
    decSkip .lengthPrefixed (enc env root t (.list xs) ++ s) = .ok () s := by
  rw [wt.eq_def] at hw
  rw [enc.eq_def] at hl ⊢
  unfold declaredExact at hd
  cases ht : t.strip <;> simp only [ht, Bool.and_eq_true, Bool.false_eq_true, and_false] at hw hd
  case prim p => exact absurd ht (hp p)
  case tuple ts => exact absurd ht (hs ts)
  all_goals
    simp only [ht, List.length_append] at hl ⊢
    exact skipPrefixed (of_decide_eq_true hd) (by omega)

theorem selfPrefixed_skip {env : Env} : ∀ (t : Ty), selfPrefixed t = true → ∀ (root : Bool) (v : Val),
    wt env t v = true → declaredExact env t v = true → (enc env root t v).length < 2 ^ 64 →
    ∀ s, decSkip .lengthPrefixed (enc env root t v ++ s) = .ok () s
  | .inst t, ht, root, v, hw, hd, hl, s => by
    rw [wt_inst] at hw
    rw [enc_inst] at hl ⊢
    exact selfPrefixed_skip t ht false v hw hd hl s
  | .prim p, ht, root, v, hw, hd, hl, s => by
    rw [wt.eq_def] at hw
    simp only [Ty.strip, Bool.and_eq_true] at hw
    rw [enc.eq_def] at hl ⊢
    simp only [Ty.strip] at hl ⊢
    have := skip_prim p v hw.2 hl s
    cases p <;> simp [selfPrefixed] at ht <;> exact this
  | .nonZero t, ht, root, v, hw, hd, hl, s => by
    have hz := (wt_nz hw).1
    cases t with
    | prim p =>
      rw [wt.eq_def] at hw
      simp only [Ty.strip, Bool.and_eq_true] at hw
      rw [enc.eq_def] at hl ⊢
      simp only [Ty.strip] at hl ⊢
      have := skip_prim p v hw.2 hl s
      cases p <;> simp [selfPrefixed] at ht <;> exact this
    | vec t =>
      cases v with
      | list xs => exact skip_coll (by simp [Ty.strip]) (by simp [Ty.strip]) hw hd hl s
      | _ => rw [wt.eq_def] at hw; simp [Ty.strip] at hw
    | hashMap k w =>
      cases v with
      | list xs => exact skip_coll (by simp [Ty.strip]) (by simp [Ty.strip]) hw hd hl s
      | _ => rw [wt.eq_def] at hw; simp [Ty.strip] at hw
    | hashSet t =>
      cases v with
      | list xs => exact skip_coll (by simp [Ty.strip]) (by simp [Ty.strip]) hw hd hl s
      | _ => rw [wt.eq_def] at hw; simp [Ty.strip] at hw
    | _ => simp [Ty.nzArg] at hz
  | .vec t, ht, root, v, hw, hd, hl, s => by
    cases v with
    | list xs => exact skip_coll (by simp [Ty.strip]) (by simp [Ty.strip]) hw hd hl s
    | _ => rw [wt.eq_def] at hw; simp [Ty.strip] at hw
  | .hashMap t _, ht, root, v, hw, hd, hl, s => by
    cases v with
    | list xs => exact skip_coll (by simp [Ty.strip]) (by simp [Ty.strip]) hw hd hl s
    | _ => rw [wt.eq_def] at hw; simp [Ty.strip] at hw
  | .hashSet t, ht, root, v, hw, hd, hl, s => by
    cases v with
    | list xs => exact skip_coll (by simp [Ty.strip]) (by simp [Ty.strip]) hw hd hl s
    | _ => rw [wt.eq_def] at hw; simp [Ty.strip] at hw
  | .array t _, ht, root, v, hw, hd, hl, s => by
    cases v with
    | list xs => exact skip_coll (by simp [Ty.strip]) (by simp [Ty.strip]) hw hd hl s
    | _ => rw [wt.eq_def] at hw; simp [Ty.strip] at hw
  | .tuple _, ht, _, _, _, _, _, _ => by simp [selfPrefixed] at ht
  | .option _, ht, _, _, _, _, _, _ => by simp [selfPrefixed] at ht
  | .ext _ _, ht, _, _, _, _, _, _ => by simp [selfPrefixed] at ht
  | .param _, ht, _, _, _, _, _, _ => by simp [selfPrefixed] at ht

theorem marker_selfPrefixed : ∀ (t : Ty), selfPrefixed t = true → marker t = .lengthPrefixed
  | .prim p, h => by cases p <;> simp [selfPrefixed] at h <;> rfl
  | .nonZero t, h => by rw [marker]; exact marker_selfPrefixed t h
  | .vec _, _ => rfl
  | .hashMap _ _, _ => rfl
  | .hashSet _, _ => rfl
  | .array _ _, _ => rfl
  | .inst _, _ => rfl
  | .tuple _, _ => rfl
  | .option _, _ => rfl
  | .ext _ _, _ => rfl
  | .param _, _ => rfl

/-- What the encoder writes for a field of a skippable type is skipped exactly. -/
theorem skip_field {env : Env} {t : Ty} (hsk : skippable t = true) {v : Val} (hw : wt env t v = true)
    (hd : declaredExact env t v = true) (hl : (enc env true t v).length < 2 ^ 64) (s : Bytes) :
    decSkip (marker t) (enc env true t v ++ s) = .ok () s := by
  cases t with
  | prim p =>
    rw [wt.eq_def] at hw
    simp only [Ty.strip, Bool.and_eq_true] at hw
    rw [enc.eq_def] at hl ⊢
    simp only [Ty.strip] at hl ⊢
    exact skip_prim p v hw.2 hl s
  | tuple ts =>
    cases v with
    | list xs =>
      rw [enc_root_tuple, List.length_append] at hl
      rw [enc_root_tuple]
      refine skipPrefixed ?_ (by omega)
      rw [enc.eq_def]
      simp only [declaredExact, Ty.strip] at hd ⊢
      exact of_decide_eq_true hd
    | _ => rw [wt.eq_def] at hw; simp [Ty.strip] at hw
  | nonZero t =>
    by_cases hp : selfPrefixed t = true
    · rw [marker_selfPrefixed (.nonZero t) hp]
      exact selfPrefixed_skip (.nonZero t) hp true v hw hd hl s
    · cases t <;> simp only [skippable, Ty.nzArg, Bool.false_eq_true] at hsk <;>
        simp only [selfPrefixed, not_true_eq_false] at hp
      rw [wt.eq_def] at hw
      simp only [Ty.strip, Bool.and_eq_true] at hw
      rw [enc.eq_def] at hl ⊢
      simp only [Ty.strip] at hl ⊢
      exact skip_prim _ v hw.2 hl s
  | inst t =>
    exact selfPrefixed_skip (.inst t) hsk true v hw hd hl s
  | option _ => simp [skippable] at hsk
  | ext _ _ => simp [skippable] at hsk
  | param _ => simp [skippable] at hsk
  | vec t => exact selfPrefixed_skip (.vec t) rfl true v hw hd hl s
  | hashMap k w => exact selfPrefixed_skip (.hashMap k w) rfl true v hw hd hl s
  | hashSet t => exact selfPrefixed_skip (.hashSet t) rfl true v hw hd hl s
  | array t n => exact selfPrefixed_skip (.array t n) rfl true v hw hd hl s

end Mabo.Codegen
