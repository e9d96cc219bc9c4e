import Verif.Spec.Names
import Verif.Evolve
/-! The view of a value whose types are the same in both schemas is the value itself. -/
namespace Mabo.Codegen
open Mabo.Buf Mabo.Varint Mabo.Schema Mabo.Spec

mutual
theorem namesIn_subst {S : List String → Bool} {args : List Ty} (ha : namesInAll S args = true) :
    ∀ t, namesIn S t = true → namesIn S (t.subst args) = true
  | .prim _, _ => rfl
  | .vec t, h => namesIn_subst ha t h
  | .hashSet t, h => namesIn_subst ha t h
  | .option t, h => namesIn_subst ha t h
  | .nonZero t, h => namesIn_subst ha t h
  | .array t _, h => namesIn_subst ha t h
  | .inst t, h => namesIn_subst ha t h
  | .hashMap k v, h => by
    simp only [namesIn, Bool.and_eq_true] at h
    simp only [Ty.subst, namesIn, Bool.and_eq_true]
    exact ⟨namesIn_subst ha k h.1, namesIn_subst ha v h.2⟩
  | .tuple ts, h => namesInAll_subst ha ts h
  | .ext name as, h => by
    simp only [namesIn, Bool.and_eq_true] at h
    simp only [Ty.subst, namesIn, Bool.and_eq_true]
    exact ⟨h.1, namesInAll_subst ha as h.2⟩
  | .param i, _ => by
    simp only [Ty.subst]
    cases hi : args[i]? with
    | none => rfl
    | some t =>
      simp only [namesIn]
      have hm := List.mem_of_getElem? hi
      clear hi
      induction args with
      | nil => simp at hm
      | cons a as ih =>
        simp only [namesInAll, Bool.and_eq_true] at ha
        rcases List.mem_cons.1 hm with rfl | h
        · exact ha.1
        · exact ih ha.2 h
theorem namesInAll_subst {S : List String → Bool} {args : List Ty} (ha : namesInAll S args = true) :
    ∀ ts, namesInAll S ts = true → namesInAll S (Ty.substList args ts) = true
  | [], _ => rfl
  | t :: ts, h => by
    simp only [namesInAll, Bool.and_eq_true] at h
    simp only [Ty.substList, namesInAll, Bool.and_eq_true]
    exact ⟨namesIn_subst ha t h.1, namesInAll_subst ha ts h.2⟩
end

mutual
theorem namesIn_all : ∀ t, namesIn (fun _ => true) t = true
  | .prim _ | .param _ => rfl
  | .vec t | .hashSet t | .option t | .nonZero t | .array t _ | .inst t => namesIn_all t
  | .hashMap k v => by simp [namesIn, namesIn_all k, namesIn_all v]
  | .tuple ts => namesInAll_all ts
  | .ext _ as => by simp [namesIn, namesInAll_all as]
theorem namesInAll_all : ∀ ts, namesInAll (fun _ => true) ts = true
  | [] => rfl
  | t :: ts => by simp [namesInAll, namesIn_all t, namesInAll_all ts]
end

theorem namesIn_strip {S : List String → Bool} : ∀ t, namesIn S t = true → namesIn S t.strip = true
  | .inst t, h => namesIn_strip t h
  | .nonZero _, h => h
  | .prim _, h | .vec _, h | .hashMap _ _, h | .hashSet _, h | .option _, h | .tuple _, h | .array _ _, h
  | .ext _ _, h | .param _, h => h

theorem find_of_mem {gs : List Field} (hnd : (gs.map (·.id)).Nodup) {f : Field} (hf : f ∈ gs) :
    gs.find? (fun g => g.id == f.id) = some f := by
  induction gs with
  | nil => simp at hf
  | cons g gs ih =>
    rw [List.map_cons, List.nodup_cons] at hnd
    rcases List.mem_cons.1 hf with rfl | h
    · simp
    · rw [List.find?_cons_of_neg, ih hnd.2 h]
      intro he
      exact hnd.1 (List.mem_map.2 ⟨f, h, (by simpa using he : g.id = f.id).symm⟩)

theorem lastOf_none {l : List (BitVec 32 × Val)} {id : BitVec 32} (h : ∀ e ∈ l, e.1 ≠ id) : lastOf l id = none := by
  have : l.filter (fun e => e.1 == id) = [] := by
    rw [List.filter_eq_nil_iff]; intro e he; simpa using h e he
  rw [lastOf, this]; rfl

/-- The carried values of the kept fields. -/
def keptCarried (keep : BitVec 32 → Bool) : List Field → List Val → List (BitVec 32 × Val)
  | f :: fs, v :: vs =>
    (if keep f.id then (match carried f.ty v with | some x => [(f.id, x)] | none => []) else []) ++
      keptCarried keep fs vs
  | _, _ => []

theorem keptCarried_id {keep : BitVec 32 → Bool} {fs : List Field} {vs : List Val} {e : BitVec 32 × Val}
    (h : e ∈ keptCarried keep fs vs) : ∃ f ∈ fs, f.id = e.1 := by
  induction fs generalizing vs with
  | nil => cases vs <;> simp [keptCarried] at h
  | cons f fs ih =>
    cases vs with
    | nil => simp [keptCarried] at h
    | cons v vs =>
      simp only [keptCarried, List.mem_append] at h
      rcases h with h | h
      · split at h
        · cases hc : carried f.ty v with
          | none => rw [hc] at h; simp at h
          | some x => rw [hc] at h; simp at h; subst h; exact ⟨f, by simp, rfl⟩
        · simp at h
      · obtain ⟨g, hg, he⟩ := ih h
        exact ⟨g, List.mem_cons_of_mem _ hg, he⟩

theorem assemble_kept {W : Env} {named : Bool} {keep : BitVec 32 → Bool} {fs : List Field} {vs : List Val}
    (hnd : (fs.map (·.id)).Nodup) (hw : wtFields W fs vs = true) :
    assemble named (lastOf (keptCarried keep fs vs)) (fs.filter fun f => keep f.id) = .ok (keptVals keep fs vs) := by
  induction fs generalizing vs with
  | nil => cases vs <;> rfl
  | cons f fs ih =>
    cases vs with
    | nil => simp [wtFields] at hw
    | cons v vs =>
      simp only [wtFields, Bool.and_eq_true] at hw
      rw [List.map_cons, List.nodup_cons] at hnd
      have hrest : assemble named (lastOf (keptCarried keep (f :: fs) (v :: vs))) (fs.filter fun f => keep f.id) =
          .ok (keptVals keep fs vs) := by
        rw [← ih hnd.2 hw.2]
        apply assemble_congr
        intro g hg
        rw [List.mem_filter] at hg
        rw [keptCarried, lastOf_append]
        rw [lastOf_none (l := if keep f.id = true then _ else _)]
        · simp
        · intro e he heq
          have : e.1 = f.id := by
            split at he
            · cases hc : carried f.ty v with
              | none => rw [hc] at he; simp at he
              | some x => rw [hc] at he; simp at he; subst he; rfl
            · simp at he
          exact hnd.1 (List.mem_map.2 ⟨g, hg.1, by rw [← heq, this]⟩)
      by_cases hk : keep f.id = true
      · rw [List.filter_cons_of_pos (by simpa using hk), keptVals, if_pos hk, assemble, hrest]
        have htail : lastOf (keptCarried keep fs vs) f.id = none := by
          apply lastOf_none
          intro e he heq
          obtain ⟨g, hg, h⟩ := keptCarried_id he
          exact hnd.1 (List.mem_map.2 ⟨g, hg, h.trans heq⟩)
        have hlook : lastOf (keptCarried keep (f :: fs) (v :: vs)) f.id = carried f.ty v := by
          rw [keptCarried, lastOf_append, htail, if_pos hk]
          cases carried f.ty v <;> simp [lastOf]
        rw [hlook]
        cases hty : f.ty with
        | option t =>
          have hv := hw.1
          rw [hty] at hv
          rcases wt_option_cases hv with rfl | ⟨x, rfl, -⟩ <;> rfl
        | _ => rfl
      · rw [List.filter_cons_of_neg (by simpa using hk), keptVals, if_neg hk, hrest]

/-- A reader that knows the fields `keep`, with kept values seen unchanged and dropped ones skippable. -/
theorem seen_kept {W R : Env} {keep : BitVec 32 → Bool} {gs fs : List Field} {vs : List Val}
    (hg : ∀ f ∈ fs, gs.find? (fun g => g.id == f.id) = if keep f.id then some f else none)
    (h : ∀ f v, (f, v) ∈ fs.zip vs → ∀ x, carried f.ty v = some x →
      if keep f.id then view W R (fieldTy f.ty) x = some x
      else skippable (fieldTy f.ty) = true ∧ declaredExact W (fieldTy f.ty) x = true) :
    seenFields W R gs fs vs = some (keptCarried keep fs vs) := by
  induction fs generalizing vs with
  | nil => cases vs <;> rfl
  | cons f fs ih =>
    cases vs with
    | nil => simp [seenFields, keptCarried]
    | cons v vs =>
      have h1 := ih (vs := vs) (fun g hg' => hg g (List.mem_cons_of_mem _ hg'))
        (fun g x hx => h g x (by rw [List.zip_cons_cons]; exact List.mem_cons_of_mem _ hx))
      have h0 := h f v (by rw [List.zip_cons_cons]; exact List.mem_cons_self ..)
      have hgf := hg f (List.mem_cons_self ..)
      have key : ∀ t x, fieldTy f.ty = t → carried f.ty v = some x → seenOne W gs f.id t x (view W R t x) =
          some (if keep f.id then [(f.id, x)] else []) := by
        rintro t x rfl hx
        have h2 := h0 x hx
        unfold seenOne
        rw [hgf]
        by_cases hk : keep f.id = true
        · rw [if_pos hk] at h2 ⊢
          simp only [if_true, h2, Option.map_some, if_pos hk]
        · rw [if_neg hk] at h2 ⊢
          simp only [h2.1, h2.2, Bool.and_true, if_true, if_neg hk]
      rw [seenFields.eq_def]
      simp only [h1]
      rw [keptCarried]
      cases hty : f.ty with
      | option t =>
        cases v with
        | some x =>
          simp only
          rw [key t x (by rw [hty]; rfl) (by rw [hty]; rfl)]
          simp only [carried, Option.bind_some, Option.map_some]
        | _ => simp [carried]
      | _ =>
        simp only
        rw [← hty, key f.ty v (by rw [hty]; rfl) (by rw [hty]; rfl)]
        simp only [carried, Option.bind_some, Option.map_some, hty]

/-! ### unchanged types -/

/-- Seen unchanged. -/
def VS (W R : Env) (S : List String → Bool) (v : Val) : Prop :=
  ∀ t, namesIn S t = true → wt W t v = true → view W R t v = some v

/-- The value, what a `Some` holds, what an entry holds. -/
def VS2 (W R : Env) (S : List String → Bool) (v : Val) : Prop :=
  VS W R S v ∧ (∀ x, v = .some x → VS W R S x) ∧ ∀ a b, v = .pair a b → VS W R S a ∧ VS W R S b

theorem vs_some {W R : Env} {S : List String → Bool} {x : Val} (ih : VS W R S x) : VS W R S (.some x) := by
  intro t hn hw
  have hn' := namesIn_strip t hn
  rw [wt.eq_def] at hw
  rw [view.eq_def]
  cases hs : t.strip <;> simp only [hs, Bool.and_false, Bool.false_eq_true] at hw ⊢ <;> rw [hs] at hn'
  rw [ih _ (by simpa [namesIn] using hn') (by simp only [Bool.and_eq_true] at hw; exact hw.2)]
  rfl

theorem vs_leaf {W R : Env} {S : List String → Bool} {v : Val} (hl : ∀ xs, v ≠ .list xs) (hs : ∀ x, v ≠ .some x)
    (hst : ∀ xs, v ≠ .struct xs) (hen : ∀ i xs, v ≠ .enum i xs) : VS W R S v := by
  intro t hn hw
  rw [wt.eq_def] at hw
  rw [view.eq_def]
  cases v with
  | list xs => exact absurd rfl (hl xs)
  | some x => exact absurd rfl (hs x)
  | struct xs => exact absurd rfl (hst xs)
  | enum i xs => exact absurd rfl (hen i xs)
  | _ => cases hst : t.strip <;> simp_all

theorem filter_true {α : Type} (l : List α) : l.filter (fun _ => true) = l := by
  induction l <;> simp_all

theorem keptVals_all {W : Env} {fs : List Field} {vs : List Val} (h : wtFields W fs vs = true) :
    keptVals (fun _ => true) fs vs = vs := by
  induction fs generalizing vs with
  | nil => cases vs <;> simp_all [wtFields, keptVals]
  | cons f fs ih =>
    cases vs with
    | nil => rfl
    | cons v vs =>
      simp only [wtFields, Bool.and_eq_true] at h
      rw [keptVals, if_pos rfl, ih h.2]

theorem wtFields_zip {W : Env} {fs : List Field} {vs : List Val} (h : wtFields W fs vs = true) {f : Field} {v : Val}
    (hm : (f, v) ∈ fs.zip vs) : wt W f.ty v = true := by
  induction fs generalizing vs with
  | nil => simp at hm
  | cons g fs ih =>
    cases vs with
    | nil => simp at hm
    | cons w vs =>
      simp only [wtFields, Bool.and_eq_true] at h
      rw [List.zip_cons_cons, List.mem_cons, Prod.mk.injEq] at hm
      rcases hm with ⟨rfl, rfl⟩ | hm
      · exact h.1
      · exact ih h.2 hm

theorem carried_cases {t : Ty} {v x : Val} (h : carried t v = some x) :
    (t = .option (fieldTy t) ∧ v = .some x) ∨ (fieldTy t = t ∧ v = x) := by
  cases t with
  | option t => cases v <;> simp_all [carried, fieldTy]
  | _ => right; exact ⟨rfl, by simpa [carried] using h⟩

theorem body_same {W R : Env} {S : List String → Bool} {xs : List Val} (h : ∀ v ∈ xs, VS2 W R S v) (fs : Fields)
    (args : List Ty) (hok : FieldsOk fs.fields) (hu : fs.unitOk = true) (ha : namesInAll S args = true)
    (hn : ∀ f ∈ fs.fields, namesIn S f.ty = true) (hw : wtFields W (fs.subst args).fields xs = true) :
    viewBody fs (fs.subst args) (seenFields W R (fs.subst args).fields (fs.subst args).fields xs) = some xs := by
  have hok' := subst_idOk (args := args) hok
  by_cases hk : fs.kind = .unit
  · have hnil : (fs.subst args).fields = [] := by
      have : fs.fields = [] := by simpa [Fields.unitOk, hk] using hu
      simp [Fields.subst, this]
    rw [hnil] at hw
    cases xs with
    | nil => simp only [viewBody, show (fs.subst args).kind = fs.kind from rfl, hk, and_self, if_true]
    | cons x xs => simp [wtFields] at hw
  · have hseen := seen_kept (W := W) (R := R) (keep := fun _ => true) (gs := (fs.subst args).fields)
      (fs := (fs.subst args).fields) (vs := xs) (fun f hf => by rw [find_of_mem hok'.1 hf]; rfl) (by
        intro f v hm x hx
        rw [if_pos rfl]
        have hv := h v (List.of_mem_zip hm).2
        have hwf := wtFields_zip hw hm
        have hnf : namesIn S f.ty = true := by
          obtain ⟨g, hg, rfl⟩ := List.mem_map.1 (by simpa [Fields.subst] using (List.of_mem_zip hm).1)
          exact namesIn_subst ha _ (hn g hg)
        rcases carried_cases hx with ⟨ht, rfl⟩ | ⟨ht, rfl⟩
        · rw [ht] at hwf hnf
          rcases wt_option_cases hwf with h0 | ⟨y, hy, hwy⟩
          · simp at h0
          · simp only [Val.some.injEq] at hy
            subst hy
            exact hv.2.1 _ rfl _ hnf hwy
        · rw [ht]; exact hv.1 _ hnf hwf)
    have has := assemble_kept (named := (fs.subst args).kind == .named) (keep := fun _ => true) hok'.1 hw
    rw [filter_true, keptVals_all hw] at has
    rw [viewBody, if_neg (by simp [hk]), if_neg (by simp [hk, show (fs.subst args).kind = fs.kind from rfl]), hseen]
    simp only [Option.bind_some, has]
    rfl

mutual
theorem vs2 {W R : Env} {S : List String → Bool} (hW : EnvOk W) (hS : Unchanged W R S) : ∀ v, VS2 W R S v
  | .bool b => ⟨vs_leaf (by simp) (by simp) (by simp) (by simp), by simp, by simp⟩
  | .num b => ⟨vs_leaf (by simp) (by simp) (by simp) (by simp), by simp, by simp⟩
  | .str b => ⟨vs_leaf (by simp) (by simp) (by simp) (by simp), by simp, by simp⟩
  | .bytes b => ⟨vs_leaf (by simp) (by simp) (by simp) (by simp), by simp, by simp⟩
  | .none => ⟨vs_leaf (by simp) (by simp) (by simp) (by simp), by simp, by simp⟩
  | .pair a b => ⟨vs_leaf (by simp) (by simp) (by simp) (by simp), by simp, by
      intro a' b' h
      simp only [Val.pair.injEq] at h
      obtain ⟨rfl, rfl⟩ := h
      exact ⟨(vs2 hW hS a).1, (vs2 hW hS b).1⟩⟩
  | .some x => ⟨vs_some (vs2 hW hS x).1, by
      intro y h
      simp only [Val.some.injEq] at h
      subst h
      exact (vs2 hW hS x).1, by simp⟩
  | .list xs => ⟨by
      obtain ⟨h1, h2, h3, -⟩ := vsLists hW hS xs
      intro t hn hw
      have hn' := namesIn_strip t hn
      rw [wt.eq_def] at hw
      rw [view.eq_def]
      simp only [Bool.and_eq_true] at hw
      cases hs : t.strip with
      | prim p => rfl
      | vec u => simp only [hs] at hw ⊢; rw [hs] at hn'; rw [h1 u hn' hw.2]; rfl
      | array u n =>
        simp only [hs, Bool.and_eq_true] at hw ⊢; rw [hs] at hn'; rw [h1 u hn' hw.2.2]; rfl
      | hashSet u =>
        simp only [hs, Bool.and_eq_true, decide_eq_true_eq] at hw ⊢; rw [hs] at hn'; rw [h1 u hn' hw.2.1]
        simp only [Option.bind_some, if_pos hw.2.2]
      | hashMap k w =>
        simp only [hs, Bool.and_eq_true, decide_eq_true_eq] at hw ⊢; rw [hs] at hn'
        simp only [namesIn, Bool.and_eq_true] at hn'
        rw [h2 k w hn'.1 hn'.2 hw.2.1]
        simp only [Option.bind_some, if_pos hw.2.2]
      | tuple ts =>
        simp only [hs, Bool.and_eq_true] at hw ⊢; rw [hs] at hn'; rw [h3 ts hn' hw.2.2]; rfl
      | _ => simp [hs] at hw, by simp, by simp⟩
  | .struct vs => ⟨by
      obtain ⟨-, -, -, h4⟩ := vsLists hW hS vs
      intro t hn hw
      have hn' := namesIn_strip t hn
      rw [wt.eq_def] at hw
      rw [view.eq_def]
      simp only [Bool.and_eq_true] at hw
      cases hs : t.strip with
      | prim p => rfl
      | ext name args =>
        simp only [hs] at hw ⊢
        rw [hs] at hn'
        simp only [namesIn, Bool.and_eq_true] at hn'
        cases hd : W name with
        | none => rw [hd] at hw; simp at hw
        | some d =>
          obtain ⟨hr, hf⟩ := hS name d hn'.1 hd
          cases d with
          | enum vars => rw [hd] at hw; simp at hw
          | struct fs =>
            simp only [hd, Bool.and_eq_true] at hw
            simp only [hr]
            rw [body_same h4 fs args (hW name _ hd) hw.2.1 hn'.2 (hf fs (by simp [Def.fieldLists])) hw.2.2]
            rfl
      | _ => simp [hs] at hw, by simp, by simp⟩
  | .enum i vs => ⟨by
      obtain ⟨-, -, -, h4⟩ := vsLists hW hS vs
      intro t hn hw
      have hn' := namesIn_strip t hn
      rw [wt.eq_def] at hw
      rw [view.eq_def]
      simp only [Bool.and_eq_true] at hw
      cases hs : t.strip with
      | prim p => rfl
      | ext name args =>
        simp only [hs] at hw ⊢
        rw [hs] at hn'
        simp only [namesIn, Bool.and_eq_true] at hn'
        cases hd : W name with
        | none => rw [hd] at hw; simp at hw
        | some d =>
          obtain ⟨hr, hf⟩ := hS name d hn'.1 hd
          cases d with
          | struct fs => rw [hd] at hw; simp at hw
          | enum vars =>
            simp only [hd] at hw
            cases hi : vars[i]? with
            | none => rw [hi] at hw; simp at hw
            | some var =>
              simp only [hi, Bool.and_eq_true] at hw
              have hm := List.mem_of_getElem? hi
              have hok : (vars.map (·.id)).Nodup ∧ ∀ v ∈ vars, FieldsOk v.fields.fields := hW name _ hd
              simp only [hr, hi, findIdx_variant hok.1 hi]
              rw [body_same h4 var.fields args (hok.2 var hm) hw.2.1 hn'.2
                (hf var.fields (by simp only [Def.fieldLists, List.mem_map]; exact ⟨var, hm, rfl⟩)) hw.2.2]
              rfl
      | _ => simp [hs] at hw, by simp, by simp⟩
theorem vsLists {W R : Env} {S : List String → Bool} (hW : EnvOk W) (hS : Unchanged W R S) : ∀ xs : List Val,
    (∀ t, namesIn S t = true → wtList W t xs = true → viewList W R t xs = some xs) ∧
    (∀ k w, namesIn S k = true → namesIn S w = true → wtEntries W k w xs = true → viewEntries W R k w xs = some xs) ∧
    (∀ ts, namesInAll S ts = true → wtTuple W ts xs = true → viewTuple W R ts xs = some xs) ∧
    ∀ v ∈ xs, VS2 W R S v
  | [] => by
    refine ⟨fun t _ _ => rfl, fun _ _ _ _ _ => rfl, ?_, ?_⟩
    · intro ts _ hw
      cases ts <;> simp [wtTuple, viewTuple] at hw ⊢
    · intro v hv; simp at hv
  | x :: xs => by
    obtain ⟨h1, h2, h3, h4⟩ := vsLists hW hS xs
    have hx := vs2 hW hS x
    refine ⟨?_, ?_, ?_, ?_⟩
    · intro t hn hw
      simp only [wtList, Bool.and_eq_true] at hw
      rw [viewList, hx.1 t hn hw.1, h1 t hn hw.2]; rfl
    · intro k w hk hn hw
      cases x with
      | pair a b =>
        simp only [wtEntries, Bool.and_eq_true] at hw
        obtain ⟨ha, hb⟩ := hx.2.2 a b rfl
        rw [viewEntries, ha k hk hw.1.1, hb w hn hw.1.2, h2 k w hk hn hw.2]; rfl
      | _ => simp [wtEntries] at hw
    · intro ts hn hw
      cases ts with
      | nil => simp [wtTuple] at hw
      | cons t ts =>
        simp only [namesInAll, Bool.and_eq_true] at hn
        simp only [wtTuple, Bool.and_eq_true] at hw
        rw [viewTuple, hx.1 t hn.1 hw.1, h3 ts hn.2 hw.2]; rfl
    · intro v hv
      rcases List.mem_cons.1 hv with rfl | h
      · exact hx
      · exact h4 v h
end

/-- A reader sees values of unchanged types unchanged. -/
theorem view_same {W R : Env} {S : List String → Bool} (hW : EnvOk W) (hS : Unchanged W R S) {t : Ty} {v : Val}
    (hn : namesIn S t = true) (hw : wt W t v = true) : view W R t v = some v := (vs2 hW hS v).1 t hn hw

end Mabo.Codegen
