import Verif.Parser.CombLemmas
/-! Comma-separated lists are read back. -/
namespace Mabo.Parse

/-- The texts of items, separated by commas, with an optional trailing comma. -/
def joinItems : List Text → Bool → Text
  | [], _ => []
  | [t], trailing => t ++ (if trailing then [','] else [])
  | t :: ts, trailing => t ++ ',' :: joinItems ts trailing

theorem punctuateAux_items {α : Type} {p : P α} (hp : Eats p) {B : Text → Prop} (hB : ∀ r, B (',' :: r))
    {closing : Text} (hBc : B closing) (hpc : p closing = .back) (hnc : ws (chr ',') closing = .back) (trailing : Bool) :
    ∀ (items : List (α × Text)), items ≠ [] → (∀ i ∈ items, ∀ rest, B rest → p (i.2 ++ rest) = .ok i.1 rest) →
      ∀ n acc prev, (joinItems (items.map (·.2)) trailing ++ closing).length < n →
        punctuateAux (do let a ← p; ws (chr ','); pure a) (do let a ← p; let c ← opt (ws (chr ',')); pure (a, c.isSome))
          n acc prev (joinItems (items.map (·.2)) trailing ++ closing) =
        .ok (acc.reverse ++ items.map (·.1), trailing) closing := by
  have hcomma : ∀ r, ws (chr ',') (',' :: r) = .ok () r := fun r => by
    rw [ws_stop (stop_cons.2 (by decide))]; exact chr_ok _ _
  have step : ∀ (i : α × Text) (r : Text), (∀ rest, B rest → p (i.2 ++ rest) = .ok i.1 rest) →
      (do let a ← p; ws (chr ','); pure a : P α) (i.2 ++ ',' :: r) = .ok i.1 r := by
    intro i r h
    rw [bind_ok (h _ (hB r)), bind_ok (hcomma r)]; rfl
  have hlen : ∀ (i : α × Text) (r : Text), B r → (∀ rest, B rest → p (i.2 ++ rest) = .ok i.1 rest) → 0 < i.2.length := by
    intro i r hr h
    have := hp _ _ _ (h r hr)
    rw [List.length_append] at this
    omega
  intro items
  induction items with
  | nil => intro h; exact absurd rfl h
  | cons i items ih =>
    intro _ hi n acc prev hn
    have hi0 := hi i (by simp)
    cases n with
    | zero => omega
    | succ n =>
    cases items with
    | nil =>
      simp only [List.map_cons, List.map_nil, joinItems] at hn ⊢
      cases trailing with
      | false =>
        simp only [Bool.false_eq_true, if_false, List.append_nil] at hn ⊢
        rw [punctuateAux_succ]
        have hf : (do let a ← p; ws (chr ','); pure a : P α) (i.2 ++ closing) = .back := by
          rw [bind_ok (hi0 _ hBc)]; exact bind_back hnc
        have hg : (do let a ← p; let c ← opt (ws (chr ',')); pure (a, c.isSome) : P (α × Bool)) (i.2 ++ closing) =
            .ok (i.1, false) closing := by
          rw [bind_ok (hi0 _ hBc), bind_ok (opt_none hnc)]; rfl
        rw [hf, hg]
        simp
      | true =>
        simp only [if_true, List.append_assoc, List.singleton_append] at hn ⊢
        rw [punctuateAux_succ, step i closing hi0]
        simp only [List.length_append, List.length_cons] at hn ⊢
        rw [if_neg (by omega)]
        cases n with
        | zero => omega
        | succ n =>
          rw [punctuateAux_succ]
          have hf : (do let a ← p; ws (chr ','); pure a : P α) closing = .back := bind_back hpc
          have hg : (do let a ← p; let c ← opt (ws (chr ',')); pure (a, c.isSome) : P (α × Bool)) closing = .back :=
            bind_back hpc
          have hg' : (do let a ← p; let c ← opt (ws (chr ',')); pure (a, c.isSome) : P (α × Bool))
              (i.2 ++ ',' :: closing) = .ok (i.1, true) closing := by
            rw [bind_ok (hi0 _ (hB _)), bind_ok (opt_some (hcomma closing))]; rfl
          rw [hf, hg]
          simp only [hg']
          simp
    | cons j items =>
      have hjoin : joinItems ((i :: j :: items).map (·.2)) trailing =
          i.2 ++ ',' :: joinItems ((j :: items).map (·.2)) trailing := rfl
      rw [hjoin, List.append_assoc, List.cons_append] at hn ⊢
      rw [punctuateAux_succ, step i _ hi0]
      simp only [List.length_append, List.length_cons] at hn
      simp only []
      rw [if_neg (by simp only [List.length_append, List.length_cons]; omega)]
      rw [ih (by simp) (fun k hk => hi k (by simp [hk])) n _ _ (by simp only [List.length_append]; omega)]
      simp

theorem commaList_ok {α : Type} {p : P α} (hp : Eats p) {B : Text → Prop} (hB : ∀ r, B (',' :: r)) {closing : Text}
    (hBc : B closing) (hpc : p closing = .back) (hnc : ws (chr ',') closing = .back) (trailing : Bool)
    (items : List (α × Text)) (hne : items ≠ [])
    (hi : ∀ i ∈ items, ∀ rest, B rest → p (i.2 ++ rest) = .ok i.1 rest) :
    commaList p (joinItems (items.map (·.2)) trailing ++ closing) = .ok (items.map (·.1), trailing) closing := by
  unfold commaList punctuate
  rw [punctuateAux_items hp hB hBc hpc hnc trailing items hne hi _ _ _ (Nat.lt_succ_self _)]
  rfl

/-- Between delimiters. -/
theorem surround_commaList {α : Type} {p : P α} (hp : Eats p) {B : Text → Prop} (hB : ∀ r, B (',' :: r)) {o c : Char}
    {gap rest : Text} (hgap : ∀ d ∈ gap, isMulti d = true) (hc : isMulti c = false) (hcc : c ≠ ',')
    (hBc : B (gap ++ c :: rest)) (hpc : p (gap ++ c :: rest) = .back) (trailing : Bool)
    (items : List (α × Text)) (hne : items ≠ [])
    (hi : ∀ i ∈ items, ∀ rest, B rest → p (i.2 ++ rest) = .ok i.1 rest) :
    surround o c (commaList p) (o :: (joinItems (items.map (·.2)) trailing ++ (gap ++ c :: rest))) =
      .ok (items.map (·.1), trailing) rest := by
  have hdrop : (gap ++ c :: rest).dropWhile isMulti = c :: rest :=
    (takeWhile_append_stop hgap (stop_cons.2 hc)).2
  refine surround_ok (commaList_ok hp hB hBc hpc ?_ trailing items hne hi) ?_
  · rw [ws_run, hdrop]; exact chr_back _ hcc
  · rw [ws_run, hdrop]; exact chr_ok _ _

end Mabo.Parse
