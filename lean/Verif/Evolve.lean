import Verif.Spec.View
import Verif.SkipLemmas
/-! Schema evolution: a reader sees exactly the `view` of what the writer wrote. -/
namespace Mabo.Codegen
open Mabo.Buf Mabo.Varint Mabo.Schema Mabo.Spec

/-! ### windows of already encoded elements -/

theorem decodeMany_pairs {α : Type} (d : Dec α) (ps : List (Bytes × α)) (n : Nat)
    (hd : ∀ p ∈ ps, p.1 ≠ [] ∧ ∀ s, d (p.1 ++ s) = .ok p.2 s)
    (hn : (ps.flatMap (·.1)).length ≤ n) : decodeMany d n (ps.flatMap (·.1)) = .ok (ps.map (·.2)) [] := by
  induction ps generalizing n with
  | nil => cases n <;> rfl
  | cons p ps ih =>
    simp only [List.mem_cons, forall_eq_or_imp] at hd
    have hx := List.length_pos_iff.2 hd.1.1
    simp only [List.flatMap_cons, List.length_append] at hn
    obtain ⟨n, rfl⟩ : ∃ m, n = m + 1 := ⟨n - 1, by omega⟩
    simp only [List.flatMap_cons, List.map_cons]
    obtain ⟨b, r, hbr⟩ : ∃ b r, p.1 ++ ps.flatMap (·.1) = b :: r := by
      match hh : p.1, hd.1.1 with
      | b :: r, _ => exact ⟨b, r ++ ps.flatMap (·.1), rfl⟩
    rw [hbr, decodeMany, ← hbr, hd.1.2, Res.bind_ok, ih n hd.2 (by omega), Res.map_ok]

theorem decWindow_pairs {α : Type} (d : Dec α) (ps : List (Bytes × α)) (s : Bytes)
    (hd : ∀ p ∈ ps, p.1 ≠ [] ∧ ∀ s, d (p.1 ++ s) = .ok p.2 s) :
    decWindow d (ps.flatMap (·.1)) s = .ok (ps.map (·.2)) s := by
  unfold decWindow
  rw [decodeMany_pairs d ps _ hd (Nat.le_refl _), Res.bind_ok]

theorem decodeUpTo_pairs {α : Type} (d : Dec α) (ps : List (Bytes × α))
    (hd : ∀ p ∈ ps, p.1 ≠ [] ∧ ∀ s, d (p.1 ++ s) = .ok p.2 s) (s : Bytes) :
    decodeUpTo d ps.length (ps.flatMap (·.1) ++ s) = .ok (ps.map (·.2)) s := by
  induction ps with
  | nil => rfl
  | cons p ps ih =>
    simp only [List.mem_cons, forall_eq_or_imp] at hd
    simp only [List.flatMap_cons, List.append_assoc, List.length_cons, List.map_cons]
    obtain ⟨b, r, hbr⟩ : ∃ b r, p.1 ++ (ps.flatMap (·.1) ++ s) = b :: r := by
      match hh : p.1, hd.1.1 with
      | b :: r, _ => exact ⟨b, _, rfl⟩
    rw [hbr, decodeUpTo, ← hbr, hd.1.2, Res.bind_ok, ih hd.2, Res.map_ok]

/-! ### the statement -/

def EV (W R : Env) (v : Val) (root : Bool) (t : Ty) : Prop :=
  wt W t v = true → faithful W t v = true → (enc W root t v).length < 2 ^ 64 →
    ∀ w, view W R t v = some w → ∀ s, decode R root t (enc W root t v ++ s) = .ok w s

theorem view_inst (W R : Env) (t : Ty) (v : Val) : view W R (.inst t) v = view W R t v := by
  rw [view.eq_def, view.eq_def W R t v]; simp only [Ty.strip]

theorem ev_of_core {W R : Env} {v : Val} (h : ∀ root t, core t → EV W R v root t) : ∀ root t, EV W R v root t
  | root, .inst t => by
    intro hw hf hl w hv s
    rw [wt_inst] at hw
    rw [faithful_inst] at hf
    rw [view_inst] at hv
    rw [enc_inst] at hl ⊢
    have := ev_of_core h false t hw hf hl w hv s
    unfold decode at this ⊢
    rw [decTy]; exact this
  | root, .prim p => h root _ trivial
  | root, .vec _ => h root _ trivial
  | root, .hashMap _ _ => h root _ trivial
  | root, .hashSet _ => h root _ trivial
  | root, .option _ => h root _ trivial
  | root, .nonZero _ => h root _ trivial
  | root, .tuple _ => h root _ trivial
  | root, .array _ _ => h root _ trivial
  | root, .ext _ _ => h root _ trivial
  | root, .param _ => h root _ trivial

theorem ev_prim {W R : Env} (v : Val) (root : Bool) (p : Prim) : EV W R v root (.prim p) := by
  intro hw hf hl w hv s
  rw [view.eq_def] at hv
  simp only [Ty.strip, Option.some.injEq] at hv
  subst hv
  rw [wt.eq_def] at hw
  simp only [Ty.strip, Bool.and_eq_true] at hw
  have he : enc W root (.prim p) v = encRep p.rep v := by rw [enc.eq_def]; simp only [Ty.strip]
  rw [he] at hl ⊢
  unfold decode
  rw [decTy]
  exact decRep_enc _ (Prim.rep_wide p) v s hw.2 hl

theorem ev_nzPrim {W R : Env} (v : Val) (root : Bool) (p : Prim) : EV W R v root (.nonZero (.prim p)) := by
  intro hw hf hl w hv s
  rw [view.eq_def] at hv
  simp only [Ty.strip, Option.some.injEq] at hv
  subst hv
  have hz := wt_nz hw
  rw [wt.eq_def] at hw
  simp only [Ty.strip, Bool.and_eq_true] at hw
  have he : enc W root (.nonZero (.prim p)) v = encRep p.rep v := by rw [enc.eq_def]; simp only [Ty.strip]
  rw [he] at hl ⊢
  unfold decode
  rw [decTy, if_pos hz.1]
  exact decNzRep_enc p v s hw.2 hz.2 hz.1 hl

theorem ev_leaf {W R : Env} {v : Val} (hl : ∀ xs, v ≠ .list xs) (hs : ∀ x, v ≠ .some x)
    (hst : ∀ xs, v ≠ .struct xs) (hen : ∀ i xs, v ≠ .enum i xs) (root : Bool) (t : Ty) (hc : core t) :
    EV W R v root t := by
  cases t with
  | prim p => exact ev_prim v root p
  | inst t => exact hc.elim
  | option t =>
    intro hw hf hlen w hv s
    rcases wt_option_cases hw with rfl | ⟨x, rfl, -⟩
    · have : enc W root (.option t) .none = [0] := by rw [enc.eq_def]; simp only [Ty.strip]
      rw [this]
      rw [view.eq_def] at hv
      simp only [Ty.strip, Option.some.injEq] at hv
      subst hv
      unfold decode
      rw [decTy]
      rfl
    · exact absurd rfl (hs x)
  | nonZero t =>
    cases t with
    | prim p => exact ev_nzPrim v root p
    | _ =>
      intro hw
      have := wt_nz hw
      rw [wt.eq_def] at hw
      cases v <;> simp_all [Ty.strip, Ty.nzArg, Val.nonzero]
  | _ =>
    intro hw
    rw [wt.eq_def] at hw
    cases v <;> simp_all [Ty.strip]

theorem ev_some {W R : Env} {x : Val} (ih : ∀ root t, EV W R x root t) (root : Bool) (t : Ty) (hc : core t) :
    EV W R (.some x) root t := by
  cases t with
  | prim p => exact ev_prim _ root p
  | inst t => exact hc.elim
  | option t =>
    intro hw hf hlen w hv s
    have hw' : wt W t x = true := by simpa [wt, Ty.strip, Ty.nzOk, Ty.isNz] using hw
    have hf' : faithful W t x = true := by simpa [faithful, Ty.strip] using hf
    have he : enc W root (.option t) (.some x) = 1 :: enc W false t x := by
      rw [enc.eq_def]; simp only [Ty.strip]
    rw [view.eq_def] at hv
    simp only [Ty.strip, Option.map_eq_some_iff] at hv
    obtain ⟨y, hy, rfl⟩ := hv
    rw [he, List.length_cons] at hlen
    rw [he]
    have := ih false t hw' hf' (by omega) y hy s
    unfold decode at this ⊢
    rw [decTy]
    simp only [List.cons_append, decOption, decU8, Res.bind_ok]
    rw [if_pos (by rfl), this]
    rfl
  | nonZero t =>
    intro hw
    simpa [Val.nonzero] using (wt_nz hw).2
  | _ =>
    intro hw
    rw [wt.eq_def] at hw
    simp [Ty.strip] at hw

def ElemsEV (W R : Env) (xs : List Val) : Prop :=
  ∀ t, wtList W t xs = true → faithfulElems W t xs = true → (encList W t xs).length < 2 ^ 64 →
    ∀ ys, viewList W R t xs = some ys → ∃ ps : List (Bytes × Val), ps.map (·.2) = ys ∧ ps.length = xs.length ∧
      encList W t xs = ps.flatMap (·.1) ∧ ∀ p ∈ ps, p.1 ≠ [] ∧ ∀ s, decode R false t (p.1 ++ s) = .ok p.2 s

def EntriesEV (W R : Env) (xs : List Val) : Prop :=
  ∀ k w, wtEntries W k w xs = true → faithfulEntries W k w xs = true → (encEntries W k w xs).length < 2 ^ 64 →
    ∀ ys, viewEntries W R k w xs = some ys → ∃ ps : List (Bytes × (Val × Val)),
      ps.map (fun p => toPair p.2) = ys ∧ ps.length = xs.length ∧
      encEntries W k w xs = ps.flatMap (·.1) ∧
      ∀ p ∈ ps, p.1 ≠ [] ∧ ∀ s, decEntry (decode R false k) (decode R false w) (p.1 ++ s) = .ok p.2 s

def TupleEV (W R : Env) (xs : List Val) : Prop :=
  ∀ ts, wtTuple W ts xs = true → faithfulTuple W ts xs = true → (encTuple W ts xs).length < 2 ^ 64 →
    ∀ ys, viewTuple W R ts xs = some ys → ∀ s, decTuple (decodeExt R) ts (encTuple W ts xs ++ s) = .ok ys s

def FieldsEV (W R : Env) (vs : List Val) : Prop :=
  ∀ fs gs, (∀ f ∈ fs, idOk f.id) → wtFields W fs vs = true → faithfulFields W fs vs = true →
    (encFields W fs vs).length < 2 ^ 64 →
    ∀ l, seenFields W R gs fs vs = some l → ∃ m : List (WireField × Val),
      encFields W fs vs = wireBytes (m.map (·.1)) ∧
      (∀ e ∈ m, Understood (decode R true) gs e.1 e.2) ∧ ∀ g ∈ gs, lastVal m g.id = lastOf l g.id

theorem ev_coll {W R : Env} {xs : List Val} (h1 : ElemsEV W R xs) {t : Ty} (hw : wtList W t xs = true)
    (hf : (decide (sizeList W t xs = (encList W t xs).length) && faithfulElems W t xs) = true)
    (hl : (encLen (sizeList W t xs) ++ encList W t xs).length < 2 ^ 64)
    {ys : List Val} (hv : viewList W R t xs = some ys) :
    ∃ ps : List (Bytes × Val), ps.map (·.2) = ys ∧ ps.length = xs.length ∧
      sizeList W t xs = (ps.flatMap (·.1)).length ∧ (ps.flatMap (·.1)).length < 2 ^ 64 ∧
      encList W t xs = ps.flatMap (·.1) ∧
      ∀ p ∈ ps, p.1 ≠ [] ∧ ∀ s, decTy (decodeExt R) false t (p.1 ++ s) = .ok p.2 s := by
  simp only [Bool.and_eq_true, decide_eq_true_eq] at hf
  rw [List.length_append] at hl
  obtain ⟨ps, a, b, c, d⟩ := h1 t hw hf.2 (by omega) ys hv
  exact ⟨ps, a, b, by rw [hf.1, c], by rw [← c]; omega, c, d⟩

theorem ev_map {W R : Env} {xs : List Val} (h2 : EntriesEV W R xs) {k w : Ty} (hw : wtEntries W k w xs = true)
    (hf : (decide (sizeEntries W k w xs = (encEntries W k w xs).length) && faithfulEntries W k w xs) = true)
    (hl : (encLen (sizeEntries W k w xs) ++ encEntries W k w xs).length < 2 ^ 64)
    {ys : List Val} (hv : viewEntries W R k w xs = some ys) :
    ∃ ps : List (Bytes × (Val × Val)), (ps.map (·.2)).map toPair = ys ∧ ps.length = xs.length ∧
      sizeEntries W k w xs = (ps.flatMap (·.1)).length ∧ (ps.flatMap (·.1)).length < 2 ^ 64 ∧
      encEntries W k w xs = ps.flatMap (·.1) ∧
      ∀ p ∈ ps, p.1 ≠ [] ∧ ∀ s, decEntry (decTy (decodeExt R) false k) (decTy (decodeExt R) false w) (p.1 ++ s)
        = .ok p.2 s := by
  simp only [Bool.and_eq_true, decide_eq_true_eq] at hf
  rw [List.length_append] at hl
  obtain ⟨ps, a, b, c, d⟩ := h2 k w hw hf.2 (by omega) ys hv
  exact ⟨ps, by rw [List.map_map]; exact a, b, by rw [hf.1, c], by rw [← c]; omega, c, d⟩

theorem flatMap_ne_nil {α : Type} {ps : List (Bytes × α)} (h : ps ≠ []) (hd : ∀ p ∈ ps, p.1 ≠ []) :
    ps.flatMap (·.1) ≠ [] := by
  cases ps with
  | nil => exact absurd rfl h
  | cons p ps => simp [hd p (List.mem_cons_self ..)]

theorem ev_list {W R : Env} {xs : List Val} (h1 : ElemsEV W R xs) (h2 : EntriesEV W R xs)
    (h3 : TupleEV W R xs) (root : Bool) (t : Ty) (hc : core t) : EV W R (.list xs) root t := by
  cases t with
  | prim p => exact ev_prim _ root p
  | inst t => exact hc.elim
  | vec t =>
    intro hw hf hl w hv s
    rw [wt.eq_def] at hw; simp only [Ty.strip, Bool.and_eq_true] at hw
    rw [faithful.eq_def] at hf; simp only [Ty.strip] at hf
    rw [view.eq_def] at hv; simp only [Ty.strip, Option.map_eq_some_iff] at hv
    rw [enc.eq_def] at hl ⊢; simp only [Ty.strip] at hl ⊢
    obtain ⟨ys, hys, rfl⟩ := hv
    obtain ⟨ps, rfl, -, a, b, c, d⟩ := ev_coll h1 hw.2 hf hl hys
    unfold decode
    rw [decTy]; dsimp only
    rw [a, c, List.append_assoc, decVec, decPrefixed_enc _ _ _ b, decWindow_pairs _ _ _ d]
    rfl
  | hashSet t =>
    intro hw hf hl w hv s
    rw [wt.eq_def] at hw; simp only [Ty.strip, Bool.and_eq_true] at hw
    rw [faithful.eq_def] at hf; simp only [Ty.strip] at hf
    rw [view.eq_def] at hv; simp only [Ty.strip, Option.bind_eq_some_iff] at hv
    rw [enc.eq_def] at hl ⊢; simp only [Ty.strip] at hl ⊢
    obtain ⟨ys, hys, hnd⟩ := hv
    split at hnd <;> simp only [Option.some.injEq, reduceCtorEq] at hnd
    subst hnd
    obtain ⟨ps, rfl, -, a, b, c, d⟩ := ev_coll h1 hw.2.1 hf hl hys
    unfold decode
    rw [decTy]; dsimp only
    rw [a, c, List.append_assoc, decHashSet, decPrefixed_enc _ _ _ b, decWindow_pairs _ _ _ d,
      Res.map_ok, toSet_of_nodup _ (by assumption)]
    rfl
  | array t n =>
    intro hw hf hl w hv s
    rw [wt.eq_def] at hw; simp only [Ty.strip, Bool.and_eq_true, decide_eq_true_eq] at hw
    rw [faithful.eq_def] at hf; simp only [Ty.strip] at hf
    rw [view.eq_def] at hv; simp only [Ty.strip, Option.map_eq_some_iff] at hv
    rw [enc.eq_def] at hl ⊢; simp only [Ty.strip] at hl ⊢
    obtain ⟨ys, hys, rfl⟩ := hv
    obtain ⟨ps, rfl, hlen, a, b, c, d⟩ := ev_coll h1 hw.2.2 hf hl hys
    unfold decode
    have := decodeUpTo_pairs _ ps d []
    rw [List.append_nil] at this
    rw [decTy]; dsimp only
    rw [a, c, List.append_assoc, decArray, decPrefixed_enc _ _ _ b, ← hw.2.1, ← hlen, this,
      Res.bind_ok, if_pos (by simp)]
    rfl
  | hashMap k w =>
    intro hw hf hl w hv s
    rw [wt.eq_def] at hw; simp only [Ty.strip, Bool.and_eq_true] at hw
    rw [faithful.eq_def] at hf; simp only [Ty.strip] at hf
    rw [view.eq_def] at hv; simp only [Ty.strip, Option.bind_eq_some_iff] at hv
    rw [enc.eq_def] at hl ⊢; simp only [Ty.strip] at hl ⊢
    obtain ⟨ys, hys, hnd⟩ := hv
    split at hnd <;> simp only [Option.some.injEq, reduceCtorEq] at hnd
    subst hnd
    obtain ⟨ps, rfl, -, a, b, c, d⟩ := ev_map h2 hw.2.1 hf hl hys
    rename_i hnd
    rw [keys_map] at hnd
    unfold decode
    rw [decTy]; dsimp only
    rw [a, c, List.append_assoc, decHashMap, decPrefixed_enc _ _ _ b, decWindow_pairs _ _ _ d, Res.map_ok,
      toMap_of_nodup _ hnd]
    rfl
  | tuple ts =>
    intro hw hf hl w hv s
    rw [wt.eq_def] at hw; simp only [Ty.strip, Bool.and_eq_true, decide_eq_true_eq] at hw
    rw [faithful.eq_def] at hf; simp only [Ty.strip] at hf
    rw [view.eq_def] at hv; simp only [Ty.strip, Option.map_eq_some_iff] at hv
    obtain ⟨ys, hys, rfl⟩ := hv
    unfold decode
    rw [decTy, if_pos hw.2.1]
    cases root with
    | false =>
      rw [enc.eq_def] at hl ⊢; simp only [Ty.strip] at hl ⊢
      simp only [Bool.false_eq_true, if_false]
      rw [h3 ts hw.2.2 hf hl ys hys s, Res.map_ok]
    | true =>
      rw [enc.eq_def] at hl ⊢; simp only [Ty.strip, Buf.encTuple, List.length_append] at hl ⊢
      simp only [if_true]
      rw [List.append_assoc, encLen, decUint_enc (by omega), Res.bind_ok, h3 ts hw.2.2 hf (by omega) ys hys s, Res.map_ok]
  | nonZero t =>
    have hne : wt W (.nonZero t) (.list xs) = true → xs ≠ [] := by
      intro hw
      have := (wt_nz hw).2
      rintro rfl
      simp [Val.nonzero] at this
    cases t with
    | prim p => exact ev_nzPrim _ root p
    | vec t =>
      intro hw hf hl w hv s
      have hne := hne hw
      rw [wt.eq_def] at hw; simp only [Ty.strip, Bool.and_eq_true] at hw
      rw [faithful.eq_def] at hf; simp only [Ty.strip] at hf
      rw [view.eq_def] at hv; simp only [Ty.strip, Option.map_eq_some_iff] at hv
      rw [enc.eq_def] at hl ⊢; simp only [Ty.strip] at hl ⊢
      obtain ⟨ys, hys, rfl⟩ := hv
      obtain ⟨ps, rfl, hlen, a, b, c, d⟩ := ev_coll h1 hw.2 hf hl hys
      have hps : ps ≠ [] := by rintro rfl; exact hne (List.length_eq_zero_iff.1 hlen.symm)
      have hb := flatMap_ne_nil hps fun p hp => (d p hp).1
      unfold decode
      rw [decTy]; dsimp only
      rw [a, c, List.append_assoc, decNonZeroVec, decPrefixedNz_enc _ _ _ b, if_neg hb,
        decWindow_pairs _ _ _ d, Res.bind_ok, nzUnwrap, if_neg (by simpa using hps)]
      rfl
    | hashSet t =>
      intro hw hf hl w hv s
      have hne := hne hw
      rw [wt.eq_def] at hw; simp only [Ty.strip, Bool.and_eq_true] at hw
      rw [faithful.eq_def] at hf; simp only [Ty.strip] at hf
      rw [view.eq_def] at hv; simp only [Ty.strip, Option.bind_eq_some_iff] at hv
      rw [enc.eq_def] at hl ⊢; simp only [Ty.strip] at hl ⊢
      obtain ⟨ys, hys, hnd⟩ := hv
      split at hnd <;> simp only [Option.some.injEq, reduceCtorEq] at hnd
      subst hnd
      obtain ⟨ps, rfl, hlen, a, b, c, d⟩ := ev_coll h1 hw.2.1 hf hl hys
      have hps : ps ≠ [] := by rintro rfl; exact hne (List.length_eq_zero_iff.1 hlen.symm)
      have hb := flatMap_ne_nil hps fun p hp => (d p hp).1
      unfold decode
      rw [decTy]; dsimp only
      rw [a, c, List.append_assoc, decNonZeroHashSet, decPrefixedNz_enc _ _ _ b, if_neg hb,
        decWindow_pairs _ _ _ d, Res.bind_ok, toSet_of_nodup _ (by assumption), nzUnwrap, if_neg (by simpa using hps)]
      rfl
    | hashMap k w =>
      intro hw hf hl w hv s
      have hne := hne hw
      rw [wt.eq_def] at hw; simp only [Ty.strip, Bool.and_eq_true] at hw
      rw [faithful.eq_def] at hf; simp only [Ty.strip] at hf
      rw [view.eq_def] at hv; simp only [Ty.strip, Option.bind_eq_some_iff] at hv
      rw [enc.eq_def] at hl ⊢; simp only [Ty.strip] at hl ⊢
      obtain ⟨ys, hys, hnd⟩ := hv
      split at hnd <;> simp only [Option.some.injEq, reduceCtorEq] at hnd
      subst hnd
      obtain ⟨ps, rfl, hlen, a, b, c, d⟩ := ev_map h2 hw.2.1 hf hl hys
      rename_i hnd
      rw [keys_map] at hnd
      have hps : ps ≠ [] := by rintro rfl; exact hne (List.length_eq_zero_iff.1 hlen.symm)
      have hb := flatMap_ne_nil hps fun p hp => (d p hp).1
      unfold decode
      rw [decTy]; dsimp only
      rw [a, c, List.append_assoc, decNonZeroHashMap, decPrefixedNz_enc _ _ _ b, if_neg hb,
        decWindow_pairs _ _ _ d, Res.bind_ok, toMap_of_nodup _ hnd, nzUnwrap, if_neg (by simpa using hps)]
      rfl
    | _ =>
      intro hw
      have := (wt_nz hw).1
      simp [Ty.nzArg] at this
  | _ =>
    intro hw
    rw [wt.eq_def] at hw
    simp [Ty.strip] at hw

/-- Bodies of structs and variants. -/
theorem ev_body {W R : Env} {vs : List Val} (h4 : FieldsEV W R vs) (fs gs : Fields) (args : List Ty)
    (hok : FieldsOk fs.fields) (hgs : FieldsOk gs.fields)
    (hw : wtFields W (fs.subst args).fields vs = true)
    (hf : faithfulFields W (fs.subst args).fields vs = true) (b : Bytes)
    (hb : b = if fs.kind = .unit then []
      else encFields W (fs.subst args).fields vs ++ encodeU (BitVec.ofNat 32 endMarker))
    (hl : b.length < 2 ^ 64) {ws : List Val}
    (hv : viewBody fs (gs.subst args) (seenFields W R (gs.subst args).fields (fs.subst args).fields vs) = some ws)
    (s : Bytes) : decFields (decode R true) (gs.subst args) (b ++ s) = .ok ws s := by
  unfold viewBody at hv
  by_cases hk : fs.kind = .unit
  · by_cases hg : (gs.subst args).kind = .unit
    · rw [if_pos ⟨hk, hg⟩] at hv
      rw [if_pos hk] at hb
      subst hb
      simp only [Option.some.injEq] at hv
      subst hv
      unfold decFields
      rw [if_pos hg]
      rfl
    · rw [if_neg (fun h => hg h.2), if_pos (.inl hk)] at hv
      simp at hv
  · rw [if_neg (fun h => hk h.1)] at hv
    by_cases hg : (gs.subst args).kind = .unit
    · rw [if_pos (.inr hg)] at hv
      simp at hv
    · rw [if_neg (by simp [hk, hg])] at hv
      rw [if_neg hk] at hb
      subst hb
      rw [List.length_append] at hl
      simp only [Option.bind_eq_some_iff] at hv
      obtain ⟨l, hl1, hl2⟩ := hv
      obtain ⟨m, hm1, hm2, hm3⟩ := h4 _ _ (subst_idOk hok).2 hw hf (by omega) l hl1
      have := decFields_payload (decode_locals R) (gs.subst args) hg (subst_idOk hgs).1 m hm2 s
      rw [endMarker_enc, hm1]
      rw [assemble_congr hm3] at this
      cases ha : assemble ((gs.subst args).kind == .named) (lastOf l) (gs.subst args).fields with
      | error e => rw [ha] at hl2; simp [Except.toOption] at hl2
      | ok us =>
        rw [ha] at hl2 this
        simp only [Except.toOption, Option.some.injEq] at hl2
        subst hl2
        exact this

theorem ev_struct {W R : Env} (hW : EnvOk W) (hR : EnvOk R) {vs : List Val} (h4 : FieldsEV W R vs) (root : Bool)
    (t : Ty) (hc : core t) : EV W R (.struct vs) root t := by
  cases t with
  | prim p => exact ev_prim _ root p
  | inst t => exact hc.elim
  | nonZero t => intro hw; simpa [Val.nonzero] using (wt_nz hw).2
  | ext name args =>
    intro hw hf hl w hv s
    rw [wt.eq_def] at hw; simp only [Ty.strip, Bool.and_eq_true] at hw
    rw [faithful.eq_def] at hf; simp only [Ty.strip] at hf
    rw [view.eq_def] at hv; simp only [Ty.strip] at hv
    rw [enc.eq_def] at hl ⊢; simp only [Ty.strip] at hl ⊢
    rw [decode_ext]
    cases henv : W name with
    | none => simp [henv] at hw
    | some d =>
      cases d with
      | enum vars => simp [henv] at hw
      | struct fs =>
        cases hr : R name with
        | none => simp [henv, hr] at hv
        | some d' =>
          cases d' with
          | enum _ => simp [henv, hr] at hv
          | struct gs =>
            simp only [henv, hr, Bool.and_eq_true, Option.map_eq_some_iff] at hw hf hl hv ⊢
            obtain ⟨ws, hws, rfl⟩ := hv
            simp only [decDef]
            rw [ev_body h4 fs gs args (hW _ _ henv) (hR _ _ hr) hw.2.2 hf _ rfl hl hws s]
            rfl
  | _ =>
    intro hw
    rw [wt.eq_def] at hw
    simp [Ty.strip] at hw

theorem ev_enum {W R : Env} (hW : EnvOk W) (hR : EnvOk R) {i : Nat} {vs : List Val} (h4 : FieldsEV W R vs)
    (root : Bool) (t : Ty) (hc : core t) : EV W R (.enum i vs) root t := by
  cases t with
  | prim p => exact ev_prim _ root p
  | inst t => exact hc.elim
  | nonZero t => intro hw; simpa [Val.nonzero] using (wt_nz hw).2
  | ext name args =>
    intro hw hf hl w hv s
    rw [wt.eq_def] at hw; simp only [Ty.strip, Bool.and_eq_true] at hw
    rw [faithful.eq_def] at hf; simp only [Ty.strip] at hf
    rw [view.eq_def] at hv; simp only [Ty.strip] at hv
    rw [enc.eq_def] at hl ⊢; simp only [Ty.strip] at hl ⊢
    rw [decode_ext]
    cases henv : W name with
    | none => simp [henv] at hw
    | some d =>
      cases d with
      | struct fs => simp [henv] at hw
      | enum wvars =>
        cases hr : R name with
        | none => simp [henv, hr] at hv
        | some d' =>
          cases d' with
          | struct _ => simp [henv, hr] at hv
          | enum rvars =>
            cases hvi : wvars[i]? with
            | none => simp [henv, hvi] at hw
            | some var =>
              cases hj : rvars.findIdx? (fun u => u.id == var.id) with
              | none => simp [henv, hr, hvi, hj] at hv
              | some j =>
                cases huj : rvars[j]? with
                | none => simp [henv, hr, hvi, hj, huj] at hv
                | some u =>
                  simp only [henv, hr, hvi, hj, huj, Bool.and_eq_true, Option.map_eq_some_iff] at hw hf hl hv ⊢
                  obtain ⟨ws, hws, rfl⟩ := hv
                  have hok := hW _ _ henv
                  have hok' := hR _ _ hr
                  simp only [decDef]
                  rw [List.length_append] at hl
                  rw [List.append_assoc, encVariantId, decVariantId, decUint_enc (by omega), Res.bind_ok, hj]
                  simp only [huj]
                  rw [ev_body h4 var.fields u.fields args (hok.2 _ (List.mem_of_getElem? hvi))
                    (hok'.2 _ (List.mem_of_getElem? huj)) hw.2.2 hf _ rfl (by omega) hws s]
                  rfl
  | _ =>
    intro hw
    rw [wt.eq_def] at hw
    simp [Ty.strip] at hw

def EV2 (W R : Env) (v : Val) : Prop :=
  (∀ root t, EV W R v root t) ∧ (∀ x, v = .some x → ∀ root t, EV W R x root t) ∧
  (∀ a b, v = .pair a b → (∀ root t, EV W R a root t) ∧ ∀ root t, EV W R b root t)

theorem lastOf_append (a b : List (BitVec 32 × Val)) (id : BitVec 32) :
    lastOf (a ++ b) id = (lastOf b id).or (lastOf a id) := by
  simp only [lastOf, List.filter_append, List.getLast?_append]
  cases (List.filter (fun e => e.1 == id) b).getLast? <;> simp

/-- One written field, seen by the reader. -/
theorem ev_one {W R : Env} {gs : List Field} {id : BitVec 32} (hid : idOk id) {t : Ty} {x : Val}
    (h : EV W R x true t) (hw : wt W t x = true) (hf : faithful W t x = true)
    (hl : (enc W true t x).length < 2 ^ 64) {l : List (BitVec 32 × Val)}
    (hs : seenOne W gs id t x (view W R t x) = some l) :
    ∃ y, Understood (decode R true) gs ⟨⟨id, marker t⟩, enc W true t x⟩ y ∧
      ∀ g ∈ gs, lastVal [((⟨⟨id, marker t⟩, enc W true t x⟩ : WireField), y)] g.id = lastOf l g.id := by
  unfold seenOne at hs
  cases hg : gs.find? (fun g => g.id == id) with
  | some g =>
    simp only [hg] at hs
    split at hs
    · rename_i hty
      simp only [Option.map_eq_some_iff] at hs
      obtain ⟨y, hy, rfl⟩ := hs
      have hgid : g.id = id := by simpa using List.find?_some hg
      refine ⟨y, ⟨hid, .inl ⟨g, List.mem_of_find?_eq_some hg, hgid, ?_⟩⟩, ?_⟩
      · intro s
        rw [hty]
        exact h hw hf hl y hy s
      · intro g' _
        simp only [lastVal, lastOf, List.filter_cons, List.filter_nil]
        split <;> simp
    · simp at hs
  | none =>
    simp only [hg, Bool.and_eq_true] at hs
    split at hs
    · rename_i hsk
      simp only [Option.some.injEq] at hs
      subst hs
      have hno : ∀ f ∈ gs, f.id ≠ id := by
        intro f hf he
        have := List.find?_eq_none.1 hg f hf
        simp [he] at this
      refine ⟨x, ⟨hid, .inr ⟨hno, fun s => skip_field hsk.1 hw hsk.2 hl s⟩⟩, ?_⟩
      intro g' hg'
      have : ¬ (id = g'.id) := fun h => hno g' hg' h.symm
      simp [lastVal, lastOf, this]
    · simp at hs

mutual
theorem ev2 {W R : Env} (hW : EnvOk W) (hR : EnvOk R) : ∀ v : Val, EV2 W R v
  | .bool b => ⟨ev_of_core (ev_leaf (by simp) (by simp) (by simp) (by simp)), by simp, by simp⟩
  | .num b => ⟨ev_of_core (ev_leaf (by simp) (by simp) (by simp) (by simp)), by simp, by simp⟩
  | .str b => ⟨ev_of_core (ev_leaf (by simp) (by simp) (by simp) (by simp)), by simp, by simp⟩
  | .bytes b => ⟨ev_of_core (ev_leaf (by simp) (by simp) (by simp) (by simp)), by simp, by simp⟩
  | .none => ⟨ev_of_core (ev_leaf (by simp) (by simp) (by simp) (by simp)), by simp, by simp⟩
  | .pair a b => ⟨ev_of_core (ev_leaf (by simp) (by simp) (by simp) (by simp)), by simp, by
      intro a' b' h
      simp only [Val.pair.injEq] at h
      obtain ⟨rfl, rfl⟩ := h
      exact ⟨(ev2 hW hR a).1, (ev2 hW hR b).1⟩⟩
  | .some x => ⟨ev_of_core (ev_some (ev2 hW hR x).1), by
      intro y h
      simp only [Val.some.injEq] at h
      subst h
      exact (ev2 hW hR x).1, by simp⟩
  | .list xs => ⟨ev_of_core (ev_list (evLists hW hR xs).1 (evLists hW hR xs).2.1 (evLists hW hR xs).2.2.1),
      by simp, by simp⟩
  | .struct vs => ⟨ev_of_core (ev_struct hW hR (evLists hW hR vs).2.2.2), by simp, by simp⟩
  | .enum i vs => ⟨ev_of_core (ev_enum hW hR (evLists hW hR vs).2.2.2), by simp, by simp⟩
theorem evLists {W R : Env} (hW : EnvOk W) (hR : EnvOk R) :
    ∀ xs : List Val, ElemsEV W R xs ∧ EntriesEV W R xs ∧ TupleEV W R xs ∧ FieldsEV W R xs
  | [] => by
    refine ⟨?_, ?_, ?_, ?_⟩
    · intro t _ _ _ ys hv
      simp only [viewList, Option.some.injEq] at hv
      subst hv
      exact ⟨[], rfl, rfl, rfl, by simp⟩
    · intro k w _ _ _ ys hv
      simp only [viewEntries, Option.some.injEq] at hv
      subst hv
      exact ⟨[], rfl, rfl, rfl, by simp⟩
    · intro ts hw hf hl ys hv s
      cases ts with
      | nil =>
        simp only [viewTuple, Option.some.injEq] at hv
        subst hv
        rfl
      | cons t ts => simp [wtTuple] at hw
    · intro fs gs _ hw hf hl l hv
      have : l = [] := by cases fs <;> simp [seenFields] at hv <;> exact hv
      subst this
      refine ⟨[], ?_, by simp, by simp [lastVal, lastOf]⟩
      cases fs <;> simp [encFields, wireBytes]
  | v :: vs => by
    have hv := ev2 hW hR v
    have hvs := evLists hW hR vs
    refine ⟨?_, ?_, ?_, ?_⟩
    · intro t hw hf hl ys hy
      simp only [wtList, Bool.and_eq_true] at hw
      simp only [faithfulElems, Bool.and_eq_true] at hf
      simp only [encList, List.length_append] at hl
      simp only [viewList, Option.bind_eq_some_iff, Option.map_eq_some_iff] at hy
      obtain ⟨y, hy, zs, hzs, rfl⟩ := hy
      obtain ⟨ps, rfl, b, c, d⟩ := hvs.1 t hw.2 hf.2 (by omega) zs hzs
      refine ⟨(enc W false t v, y) :: ps, rfl, by simp [b], by simp [encList, c], ?_⟩
      intro p hp
      rcases List.mem_cons.1 hp with rfl | hp
      · exact ⟨by simpa using hf.1.1, hv.1 false t hw.1 hf.1.2 (by omega) y hy⟩
      · exact d p hp
    · intro k w hw hf hl ys hy
      cases v with
      | pair a b =>
        simp only [wtEntries, Bool.and_eq_true] at hw
        simp only [faithfulEntries, Bool.and_eq_true] at hf
        simp only [encEntries, List.length_append] at hl
        simp only [viewEntries, Option.bind_eq_some_iff, Option.map_eq_some_iff] at hy
        obtain ⟨x, hx, y, hy, zs, hzs, rfl⟩ := hy
        obtain ⟨ps, rfl, b', c, d⟩ := hvs.2.1 k w hw.2 hf.2 (by omega) zs hzs
        refine ⟨(enc W false k a ++ enc W false w b, (x, y)) :: ps, rfl, by simp [b'], by simp [encEntries, c], ?_⟩
        intro p hp
        rcases List.mem_cons.1 hp with rfl | hp
        · have := hv.2.2 _ _ rfl
          refine ⟨?_, ?_⟩
          · intro he
            simp only at he
            rw [he] at hf
            simp at hf
          · intro s
            have h1 := this.1 false k hw.1.1 hf.1.1.2 (by omega) x hx (enc W false w b ++ s)
            have h2 := this.2 false w hw.1.2 hf.1.2 (by omega) y hy s
            simp only [decEntry, List.append_assoc]
            rw [h1, Res.bind_ok, h2, Res.bind_ok]
        · exact d p hp
      | _ => simp [wtEntries] at hw
    · intro ts hw hf hl ys hy s
      cases ts with
      | nil => simp [wtTuple] at hw
      | cons t ts =>
        simp only [wtTuple, Bool.and_eq_true] at hw
        simp only [faithfulTuple, Bool.and_eq_true] at hf
        simp only [encTuple, List.length_append] at hl
        simp only [viewTuple, Option.bind_eq_some_iff, Option.map_eq_some_iff] at hy
        obtain ⟨y, hy, zs, hzs, rfl⟩ := hy
        have h1 := hv.1 false t hw.1 hf.1 (by omega) y hy (encTuple W ts vs ++ s)
        have h2 := hvs.2.2.1 ts hw.2 hf.2 (by omega) zs hzs s
        unfold decode at h1
        simp only [encTuple, decTuple, List.append_assoc]
        rw [h1, Res.bind_ok, h2, Res.map_ok]
    · intro fs gs hid hw hf hl l hy
      cases fs with
      | nil => simp [wtFields] at hw
      | cons f fs =>
        simp only [wtFields, Bool.and_eq_true] at hw
        simp only [List.mem_cons, forall_eq_or_imp] at hid
        rw [faithfulFields.eq_def] at hf
        rw [seenFields.eq_def] at hy
        simp only [Bool.and_eq_true, Option.bind_eq_some_iff, Option.map_eq_some_iff] at hf hy
        obtain ⟨la, hla, lb, hlb, rfl⟩ := hy
        rw [encFields_cons, List.length_append] at hl
        obtain ⟨m, hm1, hm2, hm3⟩ := hvs.2.2.2 fs gs hid.2 hw.2 hf.2 (by omega) lb hlb
        have hone : ∃ n : List (WireField × Val),
            (chunk W f v).flatMap (fun e => encId e.1.id ++ e.1.body) = wireBytes (n.map (·.1)) ∧
            (∀ e ∈ n, Understood (decode R true) gs e.1 e.2) ∧ ∀ g ∈ gs, lastVal n g.id = lastOf la g.id := by
          rcases chunk_cases W f v with ⟨t, ht, ⟨x, rfl, hch⟩ | ⟨hx, hch⟩⟩ | ⟨ho, hft, hch⟩
          · rw [hch] at hl ⊢
            simp only [List.flatMap_cons, List.flatMap_nil, List.append_nil, List.length_append] at hl
            rw [ht] at hw
            simp only [ht] at hf hla
            rcases wt_option_cases hw.1 with h0 | ⟨z, hz, hwz⟩
            · simp at h0
            · simp only [Val.some.injEq] at hz
              subst hz
              obtain ⟨y, hy1, hy2⟩ := ev_one hid.1 (hv.2.1 _ rfl true t) hwz hf.1 (by omega) hla
              exact ⟨[(_, y)], by simp [wireBytes], by simpa using hy1, hy2⟩
          · rw [hch]
            refine ⟨[], by simp [wireBytes], by simp, ?_⟩
            have : la = [] := by
              simp only [ht] at hla
              rw [ht] at hw
              rcases wt_option_cases hw.1 with rfl | ⟨x, rfl, -⟩
              · simpa using hla.symm
              · exact absurd rfl (hx x)
            subst this
            simp [lastVal, lastOf]
          · rw [hch] at hl ⊢
            simp only [List.flatMap_cons, List.flatMap_nil, List.append_nil, List.length_append] at hl
            have hf' : faithful W f.ty v = true := by
              have := hf.1
              cases hty : f.ty <;> rw [hty] at ho <;> simp only [isOption, Bool.true_eq_false] at ho <;>
                simp only [hty] at this <;> exact this
            have hla' : seenOne W gs f.id f.ty v (view W R f.ty v) = some la := by
              cases hty : f.ty <;> rw [hty] at ho <;> simp only [isOption, Bool.true_eq_false] at ho <;>
                simp only [hty] at hla <;> exact hla
            obtain ⟨y, hy1, hy2⟩ := ev_one hid.1 (hv.1 true f.ty) hw.1 hf' (by omega) hla'
            exact ⟨[(_, y)], by simp [wireBytes], by simpa using hy1, hy2⟩
        obtain ⟨n, hn1, hn2, hn3⟩ := hone
        refine ⟨n ++ m, ?_, ?_, ?_⟩
        · rw [encFields_cons, hn1, hm1, List.map_append, wireBytes_append]
        · intro e he
          rcases List.mem_append.1 he with he | he
          · exact hn2 e he
          · exact hm2 e he
        · intro g hg
          rw [lastVal_append, lastOf_append, hn3 g hg, hm3 g hg]
end

/-- A reader sees exactly the view of what was written. -/
theorem ev {W R : Env} (hW : EnvOk W) (hR : EnvOk R) (v : Val) (root : Bool) (t : Ty) : EV W R v root t :=
  (ev2 hW hR v).1 root t

end Mabo.Codegen
