import Verif.Spec.Lsp
/-! Lemmas about positions and the document state of the language server. -/
namespace Mabo.Lsp
open Mabo.Spec

theorem bytes_append (a b : Text) : bytes (a ++ b) = bytes a + bytes b := by
  unfold bytes; rw [List.map_append, List.sum_append]

theorem bytes_cons (c : Char) (a : Text) : bytes (c :: a) = c.utf8Size + bytes a := by
  unfold bytes; rw [List.map_cons, List.sum_cons]

theorem byteToChar_go (a b : Text) : byteToChar.go (a ++ b) (bytes a) = .ok a.length := by
  induction a with
  | nil => cases b <;> rfl
  | cons c a ih =>
    have hpos := Char.utf8Size_pos c
    rw [bytes_cons, List.cons_append]
    obtain ⟨n, hn⟩ : ∃ n, c.utf8Size + bytes a = n + 1 := ⟨c.utf8Size + bytes a - 1, by omega⟩
    rw [hn, byteToChar.go, if_neg (by omega), show n + 1 - c.utf8Size = bytes a by omega, ih]
    rfl

/-- A byte offset that is a character boundary. -/
theorem byteToChar_ok (a b : Text) : byteToChar (a ++ b) (bytes a) = .ok a.length := byteToChar_go a b

theorem byteToChar_go_panic (a : Text) : ∀ n, bytes a < n → byteToChar.go a n = .panic := by
  induction a with
  | nil =>
    intro n hn
    cases n with
    | zero => simp [bytes] at hn
    | succ n => rfl
  | cons c a ih =>
    intro n hn
    rw [bytes_cons] at hn
    obtain ⟨m, rfl⟩ : ∃ m, n = m + 1 := ⟨n - 1, by omega⟩
    rw [byteToChar.go, if_neg (by omega), ih _ (by omega)]

theorem byteToChar_panic {a : Text} {n : Nat} (h : bytes a < n) : byteToChar a n = .panic := byteToChar_go_panic a n h

/-! ### Positions -/

theorem width_pos (enc : Encoding) (c : Char) : 0 < width enc c := by
  cases enc
  · exact Char.utf8Size_pos c
  · show 0 < if _ then 1 else 2
    split <;> omega
  · exact Nat.one_pos

theorem lastLine_append_newline (a b : Text) : lastLine (a ++ '\n' :: b) = lastLine b := by
  unfold lastLine
  rw [List.reverse_append, List.reverse_cons, List.append_assoc]
  congr 1
  generalize b.reverse = r
  induction r with
  | nil => simp
  | cons x r ih =>
    rw [List.cons_append, List.takeWhile_cons, List.takeWhile_cons]
    split
    · rw [ih]
    · rfl

theorem lastLine_append {a b : Text} (h : '\n' ∉ b) : lastLine (a ++ b) = lastLine a ++ b := by
  unfold lastLine
  rw [List.reverse_append, List.takeWhile_append_of_pos, List.reverse_append, List.reverse_reverse]
  intro x hx
  simp only [ne_eq, decide_not, Bool.not_eq_eq_eq_not, Bool.not_true, decide_eq_false_iff_not]
  rintro rfl
  exact h (List.mem_reverse.1 hx)

/-- A longer text ends at a later position. -/
theorem posOf_ne (enc : Encoding) (a b : Text) (hb : b ≠ []) : posOf enc (a ++ b) ≠ posOf enc a := by
  intro h
  unfold posOf at h
  injection h with h1 h2
  rw [List.count_append] at h1
  have hn : '\n' ∉ b := List.count_eq_zero.1 (by omega)
  rw [lastLine_append hn, List.map_append, List.sum_append] at h2
  cases b with
  | nil => exact hb rfl
  | cons c b =>
    rw [List.map_cons, List.sum_cons] at h2
    have := width_pos enc c
    omega

/-- Two ways to split a text at the same position are the same. -/
theorem posOf_split {enc : Encoding} {a b a' b' : Text} (h : a ++ b = a' ++ b') (hp : posOf enc a = posOf enc a') :
    a = a' ∧ b = b' := by
  rcases List.append_eq_append_iff.1 h with ⟨c, e1, e2⟩ | ⟨c, e1, e2⟩
  · subst e1
    cases c with
    | nil => exact ⟨(List.append_nil a).symm, by simpa using e2⟩
    | cons x c => exact absurd hp.symm (posOf_ne enc a _ (by simp))
  · subst e1
    cases c with
    | nil => exact ⟨List.append_nil a', by simpa using e2.symm⟩
    | cons x c => exact absurd hp (posOf_ne enc a' _ (by simp))

theorem applies_unique {enc : Encoding} {t t1 t2 : Text} {ch : Change} (h1 : Applies enc t ch t1) (h2 : Applies enc t ch t2) :
    t1 = t2 := by
  rcases h1 with ⟨hr, e1⟩ | ⟨a, b, c, et, hr, e1⟩ <;> rcases h2 with ⟨hr', e2⟩ | ⟨a', b', c', et', hr', e2⟩
  · rw [e1, e2]
  · rw [hr] at hr'; cases hr'
  · rw [hr] at hr'; cases hr'
  · rw [hr] at hr'
    injection hr' with hr'
    injection hr' with hp hq
    rw [et] at et'
    obtain ⟨e3, e4⟩ := posOf_split et' hq
    obtain ⟨e5, -⟩ := posOf_split e3 hp
    rw [e1, e2, e5, e4]

theorem appliesAll_unique {enc : Encoding} : ∀ {chs : List Change} {t t1 t2 : Text}, AppliesAll enc t chs t1 →
    AppliesAll enc t chs t2 → t1 = t2
  | [], _, _, _, h1, h2 => by rw [h1, h2]
  | ch :: chs, t, t1, t2, ⟨u1, h1, h1'⟩, ⟨u2, h2, h2'⟩ => by
    obtain rfl := applies_unique h1 h2
    exact appliesAll_unique h1' h2'

/-- Changes from the back to the front are a special case of what the protocol allows. -/
theorem backToFront_applies {enc : Encoding} : ∀ {chs : List Change} {f r t : Text}, BackToFront enc f r chs t →
    AppliesAll enc (f ++ r) chs t
  | [], _, _, _, h => h
  | ch :: chs, f, r, t, ⟨a, b, c, ef, hr, h⟩ => by
    refine ⟨a ++ ch.text ++ (c ++ r), .inr ⟨a, b, c ++ r, by rw [ef]; simp, hr, rfl⟩, ?_⟩
    have := backToFront_applies h
    simpa using this

/-! ### Changes -/

theorem convertRange_ok {enc : Encoding} {offset : Text → Position → Option Nat} (ho : OffsetContract enc offset)
    (a b c : Text) (h : bytes (a ++ b) < 2 ^ 32) :
    convertRange offset (a ++ b ++ c) (some (posOf enc a, posOf enc (a ++ b))) = .ok (some (bytes a, bytes (a ++ b))) := by
  have h1 := ho a (b ++ c)
  have h2 := ho (a ++ b) c
  rw [← List.append_assoc] at h1
  rw [bytes_append] at h
  simp only [convertRange, h1, h2]
  rw [if_pos ⟨by omega, by rw [bytes_append]; omega⟩, if_pos (by rw [bytes_append]; omega)]

theorem applyChanges_back {enc : Encoding} {offset : Text → Position → Option Nat} (ho : OffsetContract enc offset)
    (index : Text) (hs : bytes index < 2 ^ 32) : ∀ (chs : List Change) (f r x t : Text), index = f ++ x →
    BackToFront enc f r chs t → applyChanges offset index chs (f ++ r) = .ok t
  | [], f, r, x, t, _, h => by rw [applyChanges, h]
  | ch :: chs, f, r, x, t, hi, ⟨a, b, c, ef, hr, h⟩ => by
    have hb : bytes (a ++ b) < 2 ^ 32 := by
      rw [hi, ef, bytes_append, bytes_append (a ++ b)] at hs; omega
    have hidx : index = a ++ b ++ (c ++ x) := by rw [hi, ef]; simp
    rw [applyChanges, hr, hidx, convertRange_ok ho a b (c ++ x) hb]
    have e1 : f ++ r = a ++ (b ++ c ++ r) := by rw [ef]; simp
    have e2 : f ++ r = (a ++ b) ++ (c ++ r) := by rw [ef]; simp
    have h1 := byteToChar_ok a (b ++ c ++ r)
    have h2 := byteToChar_ok (a ++ b) (c ++ r)
    rw [← e1] at h1
    rw [← e2] at h2
    simp only [Outcome.bind, h1, h2]
    have e3 : (f ++ r).take a.length ++ ch.text ++ (f ++ r).drop (a ++ b).length = a ++ (ch.text ++ c ++ r) := by
      rw [show (f ++ r).drop (a ++ b).length = c ++ r by rw [e2, List.drop_left],
        show (f ++ r).take a.length = a by rw [e1, List.take_left]]
      simp
    rw [e3, ← hidx]
    exact applyChanges_back ho index hs chs a _ (b ++ (c ++ x)) t (by rw [hidx]; simp) h

/-! ### The state -/

variable {Uri : Type} [DecidableEq Uri]

theorem get_remove_self (fs : Files Uri) (u : Uri) : get (remove fs u) u = none := by
  unfold get remove
  rw [List.find?_eq_none.2]
  · rfl
  · intro x hx
    have := (List.mem_filter.1 hx).2
    simpa using this

theorem get_filter {fs : Files Uri} {p : Uri → Bool} {u : Uri} (h : p u = true) :
    get (fs.filter fun e => p e.1) u = get fs u := by
  unfold get
  induction fs with
  | nil => rfl
  | cons e fs ih =>
    rw [List.filter_cons]
    split
    · rw [List.find?_cons, List.find?_cons]
      split
      · rfl
      · exact ih
    · rename_i hp
      rw [List.find?_cons, ih]
      by_cases he : e.1 = u
      · exact absurd (he ▸ h) hp
      · rw [show decide (e.1 = u) = false from decide_eq_false he]

theorem get_filter_sub {fs : Files Uri} {p : Uri → Bool} {u : Uri} {f : File}
    (h : get (fs.filter fun e => p e.1) u = some f) : get fs u = some f := by
  by_cases hp : p u = true
  · rwa [get_filter hp] at h
  · exfalso
    unfold get at h
    rw [List.find?_eq_none.2] at h
    · cases h
    · intro x hx
      have hx := (List.mem_filter.1 hx).2
      simp only [decide_eq_true_eq]
      rintro rfl
      exact hp hx

theorem get_remove_ne (fs : Files Uri) {u v : Uri} (h : v ≠ u) : get (remove fs u) v = get fs v := by
  unfold remove
  exact get_filter (p := fun w => decide (w ≠ u)) (by simpa using h)

theorem get_insert_self (fs : Files Uri) (u : Uri) (f : File) : get (insert fs u f) u = some f := by
  unfold get insert; simp

theorem get_insert_ne (fs : Files Uri) (f : File) {u v : Uri} (h : v ≠ u) : get (insert fs u f) v = get fs v := by
  rw [← get_remove_ne fs h]
  unfold get insert
  rw [List.find?_cons, show decide (u = v) = false from decide_eq_false (Ne.symm h)]

/-- Content, rope and index agree in every file. -/
def Consistent (fs : Files Uri) : Prop := ∀ u f, get fs u = some f → f = createFile f.content

theorem consistent_insert {fs : Files Uri} (h : Consistent fs) (u : Uri) (t : Text) :
    Consistent (insert fs u (createFile t)) := by
  intro v f hf
  by_cases hv : v = u
  · subst hv
    rw [get_insert_self] at hf
    cases hf; rfl
  · rw [get_insert_ne fs _ hv] at hf
    exact h v f hf

/-- The server has the client's documents. -/
def Synced (d : Docs Uri) (fs : Files Uri) : Prop := Consistent fs ∧ ∀ u t, d u = some t → get fs u = some (createFile t)

theorem synced_insert {d : Docs Uri} {fs : Files Uri} (h : Synced d fs) (u : Uri) (t : Text) :
    Synced (d.set u (some t)) (insert fs u (createFile t)) := by
  refine ⟨consistent_insert h.1 u t, fun v s hv => ?_⟩
  unfold Docs.set at hv
  by_cases e : v = u
  · subst e
    rw [if_pos rfl] at hv
    cases hv
    exact get_insert_self fs v _
  · rw [if_neg e] at hv
    rw [get_insert_ne fs _ e]
    exact h.2 v s hv

theorem insert_remove (fs : Files Uri) (u : Uri) (f : File) : insert (remove fs u) u f = insert fs u f := by
  unfold insert remove
  rw [List.filter_filter]
  simp

/-- The client obeys the protocol, documents are smaller than 4 GiB, and a notification holds one change, or changes that
go from the back to the front. -/
def Orderly (enc : Encoding) (d : Docs Uri) : Notification Uri → Prop
  | .didChange u chs => ∀ t, d u = some t →
      bytes t < 2 ^ 32 ∧ ((∃ ch, chs = [ch]) ∨ ∃ t', BackToFront enc t [] chs t')
  | _ => True

theorem step_synced {enc : Encoding} {offset : Text → Position → Option Nat} (ho : OffsetContract enc offset)
    {d d' : Docs Uri} {fs : Files Uri} {n : Notification Uri} (h : Synced d fs) (hs : Sends enc d n d') (hn : Orderly enc d n) :
    ∃ fs', step offset fs n = .ok fs' ∧ Synced d' fs' := by
  cases hs with
  | «open» u t =>
    refine ⟨_, rfl, ?_⟩
    unfold didOpen
    cases hg : get fs u with
    | none => exact synced_insert h u t
    | some f =>
      simp only []
      split
      · rename_i e
        refine ⟨h.1, fun v s hv => ?_⟩
        unfold Docs.set at hv
        by_cases ev : v = u
        · subst ev
          rw [if_pos rfl] at hv
          cases hv
          rw [hg, h.1 v f hg, e]
        · rw [if_neg ev] at hv
          exact h.2 v s hv
      · exact synced_insert h u t
  | close u =>
    refine ⟨fs, rfl, h.1, fun v s hv => ?_⟩
    unfold Docs.set at hv
    by_cases ev : v = u
    · rw [if_pos ev] at hv; cases hv
    · rw [if_neg ev] at hv; exact h.2 v s hv
  | delete us hus =>
    refine ⟨_, rfl, fun v f hf => ?_, fun v s hv => ?_⟩
    · exact h.1 v f (get_filter_sub (p := fun w => !us.any (· = w)) hf)
    · have : get (didDelete fs us) v = get fs v := by
        refine get_filter (p := fun w => !us.any (· = w)) ?_
        simp only [Bool.not_eq_true', List.any_eq_false, decide_eq_true_eq]
        rintro x hx rfl
        rw [hus x hx] at hv; cases hv
      rw [this]
      exact h.2 v s hv
  | change u t t' chs hd ha =>
    obtain ⟨hb, hc⟩ := hn t hd
    have hg := h.2 u t hd
    -- the general case, for changes from the back to the front
    have key : isFull chs = false → BackToFront enc t [] chs t' → ∃ fs', didChange offset fs u chs = .ok fs' ∧
        Synced (d.set u (some t')) fs' := by
      intro hf hbf
      have happ := applyChanges_back ho t hb chs t [] [] t' (List.append_nil t).symm hbf
      rw [List.append_nil] at happ
      refine ⟨insert (remove fs u) u (createFile t'), ?_, ?_⟩
      · unfold didChange
        cases chs with
        | nil => simp only [hg, updateFile, createFile, happ, Outcome.bind]
        | cons ch chs => simp only [hf, hg, updateFile, createFile, happ, Outcome.bind]
      · rw [insert_remove]; exact synced_insert h u t'
    rcases hc with ⟨ch, rfl⟩ | ⟨t2, hbf⟩
    · obtain ⟨t1, hap, rfl⟩ := ha
      rcases hap with ⟨hr, e⟩ | ⟨a, b, c, et, hr, e⟩
      · refine ⟨insert fs u (createFile ch.text), ?_, e ▸ synced_insert h u _⟩
        show didChange offset fs u [ch] = _
        simp only [didChange, isFull, hr, Option.isNone_none]
      · refine key (by simp [isFull, hr]) ⟨a, b, c, et, hr, ?_⟩
        show _ = a ++ (ch.text ++ c ++ [])
        rw [e]; simp
    · have e2 := backToFront_applies hbf
      rw [List.append_nil] at e2
      obtain rfl := appliesAll_unique ha e2
      refine key ?_ hbf
      match chs, hbf with
      | [], _ => rfl
      | [ch], ⟨_, _, _, _, hr, _⟩ => simp [isFull, hr]
      | _ :: _ :: _, _ => rfl

theorem run_synced {enc : Encoding} {offset : Text → Position → Option Nat} (ho : OffsetContract enc offset)
    {d d' : Docs Uri} {ns : List (Notification Uri)} (hh : History enc (Orderly enc) d ns d') : ∀ {fs : Files Uri},
    Synced d fs → ∃ fs', run offset fs ns = .ok fs' ∧ Synced d' fs' := by
  induction hh with
  | nil d => intro fs h; exact ⟨fs, rfl, h⟩
  | cons hs hp _ ih =>
    intro fs h
    obtain ⟨fs1, h1, h2⟩ := step_synced ho h hs hp
    obtain ⟨fs2, h3, h4⟩ := ih h2
    exact ⟨fs2, by rw [run, h1]; exact h3, h4⟩

/-! ### An index -/

/-- All ways to split a text, from the front. -/
def splits : Text → List (Text × Text)
  | [] => [([], [])]
  | c :: t => ([], c :: t) :: (splits t).map fun p => (c :: p.1, p.2)

theorem mem_splits (t : Text) : ∀ a b : Text, (a, b) ∈ splits t ↔ a ++ b = t := by
  induction t with
  | nil => intro a b; simp [splits]
  | cons c t ih =>
    intro a b
    cases a with
    | nil => simp [splits]
    | cons x a =>
      simp only [splits, List.mem_cons, Prod.mk.injEq, reduceCtorEq, false_and, List.mem_map, List.cons.injEq,
        Prod.exists, false_or, List.cons_append]
      constructor
      · rintro ⟨a', b', hm, ⟨rfl, rfl⟩, rfl⟩
        exact ⟨rfl, (ih _ _).1 hm⟩
      · rintro ⟨rfl, h⟩
        exact ⟨a, b, (ih _ _).2 h, ⟨rfl, rfl⟩, rfl⟩

/-- An implementation of the contract, by search. -/
def searchOffset (enc : Encoding) (t : Text) (p : Position) : Option Nat :=
  ((splits t).find? fun s => decide (posOf enc s.1 = p)).map fun s => bytes s.1

theorem searchOffset_contract (enc : Encoding) : OffsetContract enc (searchOffset enc) := by
  intro a b
  unfold searchOffset
  cases h : (splits (a ++ b)).find? fun s => decide (posOf enc s.1 = posOf enc a) with
  | none =>
    have := List.find?_eq_none.1 h (a, b) ((mem_splits _ a b).2 rfl)
    simp at this
  | some s =>
    have h1 := List.mem_of_find?_eq_some h
    have h2 := List.find?_some h
    simp only [decide_eq_true_eq] at h2
    obtain ⟨x, y⟩ := s
    have e := (mem_splits _ x y).1 h1
    obtain ⟨rfl, _⟩ := posOf_split e h2
    rfl

end Mabo.Lsp
