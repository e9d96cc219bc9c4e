import Verif.Compiler.Validate
import Verif.Spec.Compiler
/-! Lemmas about the validator. -/
namespace Mabo.Compiler
open Mabo.Ast Mabo.Spec

/-! ### Outcomes -/

theorem andThen_ok {ε : Type} {a b : Outcome ε} : a.andThen b = .ok ↔ a = .ok ∧ b = .ok := by
  cases a <;> simp [Outcome.andThen]

theorem andThen_ok_left {ε : Type} {b : Outcome ε} : Outcome.andThen .ok b = b := rfl

theorem andThen_fail {ε : Type} {a b o : Outcome ε} (h : a.andThen b = o) (ho : o ≠ .ok) :
    a = o ∨ (a = .ok ∧ b = o) := by
  cases a <;> simp_all [Outcome.andThen]

theorem mapErr_ok {ε ε' : Type} {f : ε → ε'} {a : Outcome ε} : a.mapErr f = .ok ↔ a = .ok := by
  cases a <;> simp [Outcome.mapErr]

theorem mapErr_panic {ε ε' : Type} {f : ε → ε'} {a : Outcome ε} : a.mapErr f = .panic ↔ a = .panic := by
  cases a <;> simp [Outcome.mapErr]

theorem mapErr_err {ε ε' : Type} {f : ε → ε'} {a : Outcome ε} {e' : ε'} :
    a.mapErr f = .err e' ↔ ∃ e, a = .err e ∧ f e = e' := by
  cases a <;> simp [Outcome.mapErr]

theorem tryForEach_ok {α ε : Type} {f : α → Outcome ε} {xs : List α} :
    tryForEach f xs = .ok ↔ ∀ x ∈ xs, f x = .ok := by
  induction xs with
  | nil => simp [tryForEach]
  | cons x xs ih => simp [tryForEach, andThen_ok, ih]

theorem tryForEach_fail {α ε : Type} {f : α → Outcome ε} {xs : List α} {o : Outcome ε} (ho : o ≠ .ok)
    (h : tryForEach f xs = o) : ∃ x ∈ xs, f x = o := by
  induction xs with
  | nil => exact absurd h.symm ho
  | cons x xs ih =>
    rcases andThen_fail h ho with h | ⟨_, h⟩
    · exact ⟨x, by simp, h⟩
    · have ⟨y, hy, hf⟩ := ih h
      exact ⟨y, by simp [hy], hf⟩

/-! ### A scan with a visited map -/

/-- One element of a scan: what happens before looking at the key, key, label, what happens after. -/
structure Item (κ ν ε : Type) where
  pre : Outcome ε
  key : κ
  label : ν
  post : Outcome ε

/-- Common form of the duplicate searches. -/
def scan {κ ν ε : Type} [DecidableEq κ] (mk : κ → ν → ν → ε) : List (κ × ν) → List (Item κ ν ε) → Outcome ε
  | _, [] => .ok
  | visited, x :: xs =>
    x.pre.andThen <|
      match visit x.key x.label visited with
      | .inl other => .err (mk x.key x.label other)
      | .inr visited => x.post.andThen (scan mk visited xs)

theorem visit_inl {κ ν : Type} [DecidableEq κ] {k : κ} {v o : ν} {m : List (κ × ν)} (h : visit k v m = .inl o) :
    (k, o) ∈ m := by
  unfold visit at h
  split at h
  · rename_i e he
    have h1 := List.find?_some he
    have h2 := List.mem_of_find?_eq_some he
    simp only [beq_iff_eq] at h1
    simp only [Sum.inl.injEq] at h
    subst h1; subst h; exact h2
  · cases h

theorem visit_inr {κ ν : Type} [DecidableEq κ] {k : κ} {v : ν} {m m' : List (κ × ν)} (h : visit k v m = .inr m') :
    m' = (k, v) :: m ∧ k ∉ m.map (·.1) := by
  unfold visit at h
  split at h
  · cases h
  · rename_i hn
    simp only [Sum.inr.injEq] at h
    refine ⟨h.symm, ?_⟩
    rw [List.find?_eq_none] at hn
    intro hm
    have ⟨e, he, hk⟩ := List.mem_map.1 hm
    exact hn e he (by simp [hk])

theorem visit_cases {κ ν : Type} [DecidableEq κ] (k : κ) (v : ν) (m : List (κ × ν)) :
    (∃ o, visit k v m = .inl o ∧ (k, o) ∈ m) ∨ (visit k v m = .inr ((k, v) :: m) ∧ k ∉ m.map (·.1)) := by
  cases h : visit k v m with
  | inl o => exact .inl ⟨o, rfl, visit_inl h⟩
  | inr m' =>
    have ⟨h1, h2⟩ := visit_inr h
    subst h1
    exact .inr ⟨rfl, h2⟩

theorem scan_ok {κ ν ε : Type} [DecidableEq κ] {mk : κ → ν → ν → ε} {xs : List (Item κ ν ε)} :
    ∀ {visited : List (κ × ν)}, scan mk visited xs = .ok ↔
      (∀ x ∈ xs, x.pre = .ok ∧ x.post = .ok) ∧ (xs.map (·.key)).Nodup ∧
        ∀ x ∈ xs, x.key ∉ visited.map (·.1) := by
  induction xs with
  | nil => simp [scan]
  | cons x xs ih =>
    intro visited
    simp only [scan, andThen_ok]
    rcases visit_cases x.key x.label visited with ⟨o, ho, hm⟩ | ⟨hv, hk⟩
    · rw [ho]
      simp only [reduceCtorEq, and_false, false_iff]
      rintro ⟨_, _, h⟩
      exact h x (by simp) (List.mem_map.2 ⟨_, hm, rfl⟩)
    · rw [hv]
      simp only [andThen_ok, ih, List.map_cons, List.nodup_cons, List.mem_cons, forall_eq_or_imp, not_or, List.mem_map,
        not_exists, not_and] at hk ⊢
      constructor
      · rintro ⟨h1, h2, h3, h4, h5⟩
        exact ⟨⟨⟨h1, h2⟩, h3⟩, ⟨fun y hy => (h5 y hy).1, h4⟩, hk, fun y hy => (h5 y hy).2⟩
      · rintro ⟨⟨⟨h1, h2⟩, h3⟩, ⟨h4, h5⟩, _, h6⟩
        exact ⟨h1, h2, h3, h5, fun y hy => ⟨h4 y hy, h6 y hy⟩⟩

theorem scan_panic {κ ν ε : Type} [DecidableEq κ] {mk : κ → ν → ν → ε} {xs : List (Item κ ν ε)} :
    ∀ {visited : List (κ × ν)}, scan mk visited xs = .panic → ∃ x ∈ xs, x.pre = .panic ∨ x.post = .panic := by
  induction xs with
  | nil => simp [scan]
  | cons x xs ih =>
    intro visited h
    simp only [scan] at h
    rcases andThen_fail h (by simp) with h | ⟨_, h⟩
    · exact ⟨x, by simp, .inl h⟩
    · rcases visit_cases x.key x.label visited with ⟨o, ho, hm⟩ | ⟨hv, hk⟩
      · rw [ho] at h; cases h
      · rw [hv] at h
        rcases andThen_fail h (by simp) with h | ⟨_, h⟩
        · exact ⟨x, by simp, .inr h⟩
        · have ⟨y, hy, hh⟩ := ih h
          exact ⟨y, by simp [hy], hh⟩

theorem scan_err {κ ν ε : Type} [DecidableEq κ] {mk : κ → ν → ν → ε} {e : ε} {xs : List (Item κ ν ε)} :
    ∀ {visited : List (κ × ν)}, (visited.map (·.1)).Nodup → scan mk visited xs = .err e →
      (∃ x ∈ xs, x.pre = .err e ∨ x.post = .err e) ∨
      ∃ i x o, xs[i]? = some x ∧ e = mk x.key x.label o ∧
        ((visited.map (·.1)) ++ ((xs.take i).map (·.key))).Nodup ∧
        ((x.key, o) ∈ visited ∨ ∃ j y, j < i ∧ xs[j]? = some y ∧ y.key = x.key ∧ y.label = o) := by
  induction xs with
  | nil => simp [scan]
  | cons x xs ih =>
    intro visited hnd h
    simp only [scan] at h
    rcases andThen_fail h (by simp) with h | ⟨_, h⟩
    · exact .inl ⟨x, by simp, .inl h⟩
    · rcases visit_cases x.key x.label visited with ⟨o, ho, hm⟩ | ⟨hv, hk⟩
      · rw [ho] at h
        simp only [Outcome.err.injEq] at h
        exact .inr ⟨0, x, o, rfl, h.symm, by simpa using hnd, .inl hm⟩
      · rw [hv] at h
        rcases andThen_fail h (by simp) with h | ⟨_, h⟩
        · exact .inl ⟨x, by simp, .inr h⟩
        · have hnd' : (((x.key, x.label) :: visited).map (·.1)).Nodup := by
            simp only [List.map_cons, List.nodup_cons]; exact ⟨hk, hnd⟩
          rcases ih hnd' h with ⟨y, hy, hh⟩ | ⟨i, y, o, hi, he, hn, hw⟩
          · exact .inl ⟨y, by simp [hy], hh⟩
          · refine .inr ⟨i + 1, y, o, by simpa using hi, he, ?_, ?_⟩
            · simp only [List.take_succ_cons, List.map_cons]
              refine (List.Perm.nodup_iff ?_).1 hn
              simp only [List.map_cons, List.cons_append]
              exact List.perm_middle.symm
            · rcases hw with hw | ⟨j, z, hj, hz, hzk, hzl⟩
              · rcases List.mem_cons.1 hw with hw | hw
                · injection hw with h1 h2
                  exact .inr ⟨0, x, by omega, rfl, h1.symm, h2.symm⟩
                · exact .inl hw
              · exact .inr ⟨j + 1, z, by omega, by simpa using hz, hzk, hzl⟩

/-! ### Assigned ids -/

/-- The assignment as a function, starting with `g`. -/
def assignFrom : BitVec 32 → List (Option (BitVec 32)) → List (BitVec 32)
  | _, [] => []
  | _, some n :: l => n :: assignFrom (n + 1) l
  | g, none :: l => g :: assignFrom (g + 1) l

theorem assignFrom_length : ∀ (g : BitVec 32) (l : List (Option (BitVec 32))), (assignFrom g l).length = l.length
  | _, [] => rfl
  | _, some n :: l => by simp [assignFrom, assignFrom_length]
  | g, none :: l => by simp [assignFrom, assignFrom_length]

theorem assignFrom_first : ∀ (g : BitVec 32) (l : List (Option (BitVec 32))),
    l[0]? = some none → (assignFrom g l)[0]? = some g
  | _, [], h => by simp at h
  | _, some n :: l, h => by simp at h
  | g, none :: l, _ => by simp [assignFrom]

theorem assignFrom_explicit : ∀ (g : BitVec 32) (l : List (Option (BitVec 32))) (i : Nat) (n : BitVec 32),
    l[i]? = some (some n) → (assignFrom g l)[i]? = some n
  | _, [], _, _, h => by simp at h
  | _, some m :: l, 0, n, h => by simp at h; simp [assignFrom, h]
  | _, none :: l, 0, n, h => by simp at h
  | _, some m :: l, i + 1, n, h => by
    simp only [List.getElem?_cons_succ, assignFrom] at h ⊢; exact assignFrom_explicit _ l i n h
  | _, none :: l, i + 1, n, h => by
    simp only [List.getElem?_cons_succ, assignFrom] at h ⊢; exact assignFrom_explicit _ l i n h

theorem assignFrom_next : ∀ (g : BitVec 32) (l : List (Option (BitVec 32))) (i : Nat) (p : BitVec 32),
    l[i + 1]? = some none → (assignFrom g l)[i]? = some p → (assignFrom g l)[i + 1]? = some (p + 1)
  | _, [], _, _, h, _ => by simp at h
  | _, some m :: l, 0, p, h, hp => by
    simp only [List.getElem?_cons_succ, assignFrom, List.getElem?_cons_zero, Option.some.injEq] at h hp ⊢
    rw [assignFrom_first _ _ h, hp]
  | _, none :: l, 0, p, h, hp => by
    simp only [List.getElem?_cons_succ, assignFrom, List.getElem?_cons_zero, Option.some.injEq] at h hp ⊢
    rw [assignFrom_first _ _ h, hp]
  | _, some m :: l, i + 1, p, h, hp => by
    simp only [List.getElem?_cons_succ, assignFrom] at h hp ⊢; exact assignFrom_next _ l i p h hp
  | _, none :: l, i + 1, p, h, hp => by
    simp only [List.getElem?_cons_succ, assignFrom] at h hp ⊢; exact assignFrom_next _ l i p h hp

theorem assigned_assignFrom (l : List (Option (BitVec 32))) : Assigned l (assignFrom 1 l) :=
  ⟨assignFrom_length 1 l, assignFrom_explicit 1 l, assignFrom_first 1 l, assignFrom_next 1 l⟩

theorem assigned_unique {l : List (Option (BitVec 32))} {a b : List (BitVec 32)} (ha : Assigned l a)
    (hb : Assigned l b) : a = b := by
  have key : ∀ i : Nat, a[i]? = b[i]? := by
    intro i
    induction i with
    | zero =>
      cases h : l[0]? with
      | none =>
        have hl := List.getElem?_eq_none_iff.1 h
        rw [List.getElem?_eq_none_iff.2 (by rw [ha.length]; exact hl), List.getElem?_eq_none_iff.2 (by rw [hb.length]; exact hl)]
      | some o =>
        cases o with
        | none => rw [ha.first h, hb.first h]
        | some n => rw [ha.explicit 0 n h, hb.explicit 0 n h]
    | succ i ih =>
      cases h : l[i + 1]? with
      | none =>
        have hl := List.getElem?_eq_none_iff.1 h
        rw [List.getElem?_eq_none_iff.2 (by rw [ha.length]; exact hl), List.getElem?_eq_none_iff.2 (by rw [hb.length]; exact hl)]
      | some o =>
        cases o with
        | some n => rw [ha.explicit _ n h, hb.explicit _ n h]
        | none =>
          have hlt : i + 1 < l.length := (List.getElem?_eq_some_iff.1 h).1
          have hia : i < a.length := by rw [ha.length]; omega
          have h1 : a[i]? = some a[i] := List.getElem?_eq_getElem hia
          rw [ha.next i _ h h1, hb.next i _ h (ih ▸ h1)]
  exact List.ext_getElem? key

theorem assigned_iff {l : List (Option (BitVec 32))} {ids : List (BitVec 32)} :
    Assigned l ids ↔ ids = assignFrom 1 l :=
  ⟨fun h => assigned_unique h (assigned_assignFrom l), fun h => h ▸ assigned_assignFrom l⟩

theorem distinctIds_iff {l : List (Option (BitVec 32))} : DistinctIds l ↔ (assignFrom 1 l).Nodup := by
  simp [DistinctIds, assigned_iff]

theorem noOverflow_iff {l : List (Option (BitVec 32))} :
    NoOverflow l ↔ ∀ id ∈ assignFrom 1 l, id.toNat ≠ 2 ^ 32 - 1 := by
  simp [NoOverflow, assigned_iff]

/-- What `nextId` does to the generator. -/
theorem nextId_eq (checked : Bool) (g : BitVec 32) (o : Option (BitVec 32)) :
    nextId checked g o =
      (let id := o.getD g; if checked = true ∧ id.toNat = 2 ^ 32 - 1 then none else some (id, id + 1)) := by
  cases o <;> simp only [nextId, Option.getD] <;> congr 1 <;> simp <;> omega

theorem assignFrom_cons (g : BitVec 32) (o : Option (BitVec 32)) (l : List (Option (BitVec 32))) :
    assignFrom g (o :: l) = o.getD g :: assignFrom (o.getD g + 1) l := by
  cases o <;> rfl

/-- Overflow check of one id. -/
def idPre {ε : Type} (checked : Bool) (id : BitVec 32) : Outcome ε :=
  if checked = true ∧ id.toNat = 2 ^ 32 - 1 then .panic else .ok

/-- Named fields as scan items. -/
def namedItems (checked : Bool) : BitVec 32 → List NamedField → List (Item (BitVec 32) String DuplicateId)
  | _, [] => []
  | g, f :: fs => ⟨idPre checked (f.id.getD g), f.id.getD g, f.name, .ok⟩ :: namedItems checked (f.id.getD g + 1) fs

theorem namedIds_scan (checked : Bool) : ∀ (fs : List NamedField) (g : BitVec 32) (vis : List (BitVec 32 × String)),
    namedIds checked g vis fs = scan .named vis (namedItems checked g fs)
  | [], _, _ => rfl
  | f :: fs, g, vis => by
    simp only [namedIds, namedItems, scan, nextId_eq, idPre]
    split
    · rename_i h
      split at h
      · rename_i hc; simp [hc, Outcome.andThen]
      · cases h
    · rename_i id gen h
      split at h
      · cases h
      · rename_i hc
        simp only [Option.some.injEq, Prod.mk.injEq] at h
        obtain ⟨rfl, rfl⟩ := h
        simp only [hc, if_false, Outcome.andThen]
        cases visit (f.id.getD g) f.name vis with
        | inl o => rfl
        | inr v => exact namedIds_scan checked fs _ _

/-- Unnamed fields as scan items. -/
def unnamedItems (checked : Bool) : Nat → BitVec 32 → List UnnamedField → List (Item (BitVec 32) Nat DuplicateId)
  | _, _, [] => []
  | pos, g, f :: fs =>
    ⟨idPre checked (f.id.getD g), f.id.getD g, pos, .ok⟩ :: unnamedItems checked (pos + 1) (f.id.getD g + 1) fs

theorem unnamedIds_scan (checked : Bool) :
    ∀ (fs : List UnnamedField) (pos : Nat) (g : BitVec 32) (vis : List (BitVec 32 × Nat)),
    unnamedIds checked pos g vis fs =
      scan (fun id p o => .unnamed id (p + 1) (o + 1)) vis (unnamedItems checked pos g fs)
  | [], _, _, _ => rfl
  | f :: fs, pos, g, vis => by
    simp only [unnamedIds, unnamedItems, scan, nextId_eq, idPre]
    split
    · rename_i h
      split at h
      · rename_i hc; simp [hc, Outcome.andThen]
      · cases h
    · rename_i id gen h
      split at h
      · cases h
      · rename_i hc
        simp only [Option.some.injEq, Prod.mk.injEq] at h
        obtain ⟨rfl, rfl⟩ := h
        simp only [hc, if_false, Outcome.andThen]
        cases visit (f.id.getD g) pos vis with
        | inl o => rfl
        | inr v => exact unnamedIds_scan checked fs _ _ _

/-- Variants as scan items. -/
def variantItems (checked : Bool) : BitVec 32 → List Variant → List (Item (BitVec 32) String DuplicateId)
  | _, [] => []
  | g, v :: vs => ⟨idPre checked (v.id.getD g), v.id.getD g, v.name, validateFieldIds checked v.fields⟩ ::
      variantItems checked (v.id.getD g + 1) vs

theorem variantIds_scan (checked : Bool) : ∀ (vs : List Variant) (g : BitVec 32) (vis : List (BitVec 32 × String)),
    variantIds checked g vis vs = scan .variant vis (variantItems checked g vs)
  | [], _, _ => rfl
  | f :: fs, g, vis => by
    simp only [variantIds, variantItems, scan, nextId_eq, idPre]
    split
    · rename_i h
      split at h
      · rename_i hc; simp [hc, Outcome.andThen]
      · cases h
    · rename_i id gen h
      split at h
      · cases h
      · rename_i hc
        simp only [Option.some.injEq, Prod.mk.injEq] at h
        obtain ⟨rfl, rfl⟩ := h
        simp only [hc, if_false, andThen_ok_left]
        cases visit (f.id.getD g) f.name vis with
        | inl o => rfl
        | inr v => simp only []; rw [variantIds_scan checked fs _ _]

theorem namedItems_keys (checked : Bool) : ∀ (fs : List NamedField) (g : BitVec 32),
    (namedItems checked g fs).map (·.key) = assignFrom g (fs.map (·.id))
  | [], _ => rfl
  | f :: fs, g => by simp [namedItems, assignFrom_cons, namedItems_keys checked fs]

theorem unnamedItems_keys (checked : Bool) : ∀ (fs : List UnnamedField) (pos : Nat) (g : BitVec 32),
    (unnamedItems checked pos g fs).map (·.key) = assignFrom g (fs.map (·.id))
  | [], _, _ => rfl
  | f :: fs, _, g => by simp [unnamedItems, assignFrom_cons, unnamedItems_keys checked fs]

theorem variantItems_keys (checked : Bool) : ∀ (vs : List Variant) (g : BitVec 32),
    (variantItems checked g vs).map (·.key) = assignFrom g (vs.map (·.id))
  | [], _ => rfl
  | f :: fs, g => by simp [variantItems, assignFrom_cons, variantItems_keys checked fs]

theorem namedItems_labels (checked : Bool) : ∀ (fs : List NamedField) (g : BitVec 32),
    (namedItems checked g fs).map (·.label) = fs.map (·.name)
  | [], _ => rfl
  | f :: fs, g => by simp [namedItems, namedItems_labels checked fs]

theorem variantItems_labels (checked : Bool) : ∀ (fs : List Variant) (g : BitVec 32),
    (variantItems checked g fs).map (·.label) = fs.map (·.name)
  | [], _ => rfl
  | f :: fs, g => by simp [variantItems, variantItems_labels checked fs]

theorem variantItems_posts (checked : Bool) : ∀ (fs : List Variant) (g : BitVec 32),
    (variantItems checked g fs).map (·.post) = fs.map (fun v => validateFieldIds checked v.fields)
  | [], _ => rfl
  | f :: fs, g => by simp [variantItems, variantItems_posts checked fs]

theorem unnamedItems_labels (checked : Bool) : ∀ (fs : List UnnamedField) (pos : Nat) (g : BitVec 32) (i : Nat)
    (x : Item (BitVec 32) Nat DuplicateId), (unnamedItems checked pos g fs)[i]? = some x → x.label = pos + i
  | [], _, _, _, _, h => by simp [unnamedItems] at h
  | f :: fs, pos, g, 0, x, h => by
    simp only [unnamedItems, List.getElem?_cons_zero, Option.some.injEq] at h; subst h; rfl
  | f :: fs, pos, g, i + 1, x, h => by
    simp only [unnamedItems, List.getElem?_cons_succ] at h
    have := unnamedItems_labels checked fs (pos + 1) _ i x h; omega

theorem namedItems_pre (checked : Bool) : ∀ (fs : List NamedField) (g : BitVec 32),
    ∀ x ∈ namedItems checked g fs, x.pre = idPre checked x.key ∧ x.post = .ok
  | [], _, x, h => by simp [namedItems] at h
  | f :: fs, g, x, h => by
    rcases List.mem_cons.1 h with rfl | h
    · exact ⟨rfl, rfl⟩
    · exact namedItems_pre checked fs _ x h

theorem unnamedItems_pre (checked : Bool) : ∀ (fs : List UnnamedField) (pos : Nat) (g : BitVec 32),
    ∀ x ∈ unnamedItems checked pos g fs, x.pre = idPre checked x.key ∧ x.post = .ok
  | [], _, _, x, h => by simp [unnamedItems] at h
  | f :: fs, _, g, x, h => by
    rcases List.mem_cons.1 h with rfl | h
    · exact ⟨rfl, rfl⟩
    · exact unnamedItems_pre checked fs _ _ x h

theorem variantItems_pre (checked : Bool) : ∀ (fs : List Variant) (g : BitVec 32),
    ∀ x ∈ variantItems checked g fs, x.pre = idPre checked x.key
  | [], _, x, h => by simp [variantItems] at h
  | f :: fs, g, x, h => by
    rcases List.mem_cons.1 h with rfl | h
    · rfl
    · exact variantItems_pre checked fs _ x h

theorem idPre_ok {ε : Type} {checked : Bool} {id : BitVec 32} :
    (idPre checked id : Outcome ε) = .ok ↔ (checked = true → id.toNat ≠ 2 ^ 32 - 1) := by
  unfold idPre; split <;> simp_all

theorem idPre_panic {ε : Type} {checked : Bool} {id : BitVec 32} :
    (idPre checked id : Outcome ε) = .panic ↔ (checked = true ∧ id.toNat = 2 ^ 32 - 1) := by
  unfold idPre; split <;> simp_all

theorem idPre_err {ε : Type} {checked : Bool} {id : BitVec 32} {e : ε} : (idPre checked id : Outcome ε) ≠ .err e := by
  unfold idPre; split <;> simp

/-- Acceptance of the ids of one list. -/
theorem namedIds_ok {checked : Bool} {fs : List NamedField} :
    namedIds checked idStart [] fs = .ok ↔
      DistinctIds (fs.map (·.id)) ∧ (checked = true → NoOverflow (fs.map (·.id))) := by
  rw [namedIds_scan, scan_ok, distinctIds_iff, noOverflow_iff, namedItems_keys]
  have hk := namedItems_keys checked fs idStart
  constructor
  · rintro ⟨h1, h2, _⟩
    refine ⟨h2, fun hc id hid => ?_⟩
    rw [show (1 : BitVec 32) = idStart from rfl, ← hk] at hid
    have ⟨x, hx, he⟩ := List.mem_map.1 hid
    have := (namedItems_pre checked fs idStart x hx).1 ▸ (h1 x hx).1
    exact he ▸ idPre_ok.1 this hc
  · rintro ⟨h2, h3⟩
    refine ⟨fun x hx => ?_, h2, by simp⟩
    have ⟨hp, hq⟩ := namedItems_pre checked fs idStart x hx
    refine ⟨?_, hq⟩
    rw [hp, idPre_ok]
    exact fun hc => h3 hc _ (hk ▸ List.mem_map.2 ⟨x, hx, rfl⟩)

theorem unnamedIds_ok {checked : Bool} {fs : List UnnamedField} :
    unnamedIds checked 0 idStart [] fs = .ok ↔
      DistinctIds (fs.map (·.id)) ∧ (checked = true → NoOverflow (fs.map (·.id))) := by
  rw [unnamedIds_scan, scan_ok, distinctIds_iff, noOverflow_iff, unnamedItems_keys]
  have hk := unnamedItems_keys checked fs 0 idStart
  constructor
  · rintro ⟨h1, h2, _⟩
    refine ⟨h2, fun hc id hid => ?_⟩
    rw [show (1 : BitVec 32) = idStart from rfl, ← hk] at hid
    have ⟨x, hx, he⟩ := List.mem_map.1 hid
    have := (unnamedItems_pre checked fs 0 idStart x hx).1 ▸ (h1 x hx).1
    exact he ▸ idPre_ok.1 this hc
  · rintro ⟨h2, h3⟩
    refine ⟨fun x hx => ?_, h2, by simp⟩
    have ⟨hp, hq⟩ := unnamedItems_pre checked fs 0 idStart x hx
    refine ⟨?_, hq⟩
    rw [hp, idPre_ok]
    exact fun hc => h3 hc _ (hk ▸ List.mem_map.2 ⟨x, hx, rfl⟩)

theorem validateFieldIds_ok {checked : Bool} {fs : Fields} :
    validateFieldIds checked fs = .ok ↔ DistinctIds (givenIds fs) ∧ (checked = true → NoOverflow (givenIds fs)) := by
  cases fs with
  | named fs tr => exact namedIds_ok
  | unnamed fs tr => exact unnamedIds_ok
  | unit => simp [validateFieldIds, givenIds, distinctIds_iff, noOverflow_iff, assignFrom]

theorem validateEnumIds_ok {checked : Bool} {e : Enum} :
    validateEnumIds checked e = .ok ↔
      (DistinctIds (e.variants.map (·.id)) ∧ (checked = true → NoOverflow (e.variants.map (·.id)))) ∧
      ∀ v ∈ e.variants, validateFieldIds checked v.fields = .ok := by
  rw [validateEnumIds, variantIds_scan, scan_ok, distinctIds_iff, noOverflow_iff, variantItems_keys]
  have hk := variantItems_keys checked e.variants idStart
  have hp := variantItems_posts checked e.variants idStart
  constructor
  · rintro ⟨h1, h2, _⟩
    refine ⟨⟨h2, fun hc id hid => ?_⟩, fun v hv => ?_⟩
    · rw [show (1 : BitVec 32) = idStart from rfl, ← hk] at hid
      have ⟨x, hx, he⟩ := List.mem_map.1 hid
      have := (variantItems_pre checked e.variants idStart x hx) ▸ (h1 x hx).1
      exact he ▸ idPre_ok.1 this hc
    · have : validateFieldIds checked v.fields ∈ (variantItems checked idStart e.variants).map (·.post) := by
        rw [hp]; exact List.mem_map.2 ⟨v, hv, rfl⟩
      have ⟨x, hx, he⟩ := List.mem_map.1 this
      rw [← he]; exact (h1 x hx).2
  · rintro ⟨⟨h2, h3⟩, h4⟩
    refine ⟨fun x hx => ⟨?_, ?_⟩, h2, by simp⟩
    · rw [variantItems_pre checked e.variants idStart x hx, idPre_ok]
      exact fun hc => h3 hc _ (hk ▸ List.mem_map.2 ⟨x, hx, rfl⟩)
    · have : x.post ∈ (variantItems checked idStart e.variants).map (·.post) := List.mem_map.2 ⟨x, hx, rfl⟩
      rw [hp] at this
      have ⟨v, hv, he⟩ := List.mem_map.1 this
      rw [← he]; exact h4 v hv

end Mabo.Compiler
