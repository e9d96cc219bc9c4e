import Verif.Parser.ErrorsDepth
/-! Which errors the combinators pass on, and where in the input. -/
namespace Mabo.Failing
open Mabo.Parse (Text Res P Std isSpace isMulti isLower isUpper isDigit isAlnum)
open Mabo.Ast

section
variable {E E' α β : Type}

/-! ### Inversion -/

theorem bind_fail {p : F E α} {f : α → F E β} {s r : Text} {b : Bool} {e : E} (h : (p >>= f) s = .fail b e r) :
    p s = .fail b e r ∨ ∃ a m, p s = .ok a m ∧ f a m = .fail b e r := by
  rw [bind_run] at h
  cases hp : p s with
  | ok a m => rw [hp] at h; exact .inr ⟨a, m, rfl, h⟩
  | fail b e m => rw [hp] at h; cases h; exact .inl rfl

theorem pure_fail {a : α} {s r : Text} {b : Bool} {e : E} (h : (pure a : F E α) s = .fail b e r) : False := nomatch h

theorem mapErr_fail {f : E → E'} {p : F E α} {s r : Text} {b : Bool} {e : E'} (h : mapErr f p s = .fail b e r) :
    ∃ e', p s = .fail b e' r ∧ e = f e' := by
  rw [mapErr] at h
  cases hp : p s with
  | ok a m => rw [hp] at h; cases h
  | fail b e m => rw [hp] at h; cases h; exact ⟨_, rfl, rfl⟩

theorem mapErrAt_fail {f : Text → Text → E → E'} {p : F E α} {s r : Text} {b : Bool} {e : E'} (h : mapErrAt f p s = .fail b e r) :
    ∃ e', p s = .fail b e' r ∧ e = f s r e' := by
  rw [mapErrAt] at h
  cases hp : p s with
  | ok a m => rw [hp] at h; cases h
  | fail b e m => rw [hp] at h; cases h; exact ⟨_, rfl, rfl⟩

theorem cutErr_fail {p : F E α} {s r : Text} {b : Bool} {e : E} (h : cutErr p s = .fail b e r) :
    b = true ∧ ∃ b', p s = .fail b' e r := by
  rw [cutErr] at h
  cases hp : p s with
  | ok a m => rw [hp] at h; cases h
  | fail b e m => rw [hp] at h; cases h; exact ⟨rfl, _, rfl⟩

theorem opt_fail {p : F E α} {s r : Text} {b : Bool} {e : E} (h : opt p s = .fail b e r) : b = true ∧ p s = .fail true e r := by
  rw [opt] at h
  cases hp : p s with
  | ok a m => rw [hp] at h; cases h
  | fail b e m => cases b <;> (rw [hp] at h; cases h)
                  exact ⟨rfl, rfl⟩

theorem alt_fail {p q : F E α} {s r : Text} {b : Bool} {e : E} (h : alt p q s = .fail b e r) :
    (b = true ∧ p s = .fail true e r) ∨ q s = .fail b e r := by
  rw [alt] at h
  cases hp : p s with
  | ok a m => rw [hp] at h; cases h
  | fail b e m => cases b with
    | true => rw [hp] at h; cases h; exact .inl ⟨rfl, rfl⟩
    | false => rw [hp] at h; exact .inr h

theorem ite_fail {c : Prop} [Decidable c] {p q : F E α} {s r : Text} {b : Bool} {e : E}
    (h : (if c then p else q) s = .fail b e r) : (c ∧ p s = .fail b e r) ∨ (¬ c ∧ q s = .fail b e r) := by
  by_cases hc : c
  · rw [if_pos hc] at h; exact .inl ⟨hc, h⟩
  · rw [if_neg hc] at h; exact .inr ⟨hc, h⟩

variable [FromInput E]

theorem chr_fail {c : Char} {s r : Text} {b : Bool} {e : E} (h : chr c s = .fail b e r) :
    b = false ∧ e = parser s ∧ r = s ∧ ∀ d, s.head? = some d → d ≠ c := by
  cases s with
  | nil => cases h; exact ⟨rfl, rfl, rfl, fun _ h => (nomatch h)⟩
  | cons d s =>
    simp only [chr] at h
    by_cases hd : d = c
    · rw [if_pos hd] at h; cases h
    · rw [if_neg hd] at h; cases h; exact ⟨rfl, rfl, rfl, fun x hx => by cases hx; exact hd⟩

theorem oneOf_fail {f : Char → Bool} {s r : Text} {b : Bool} {e : E} (h : oneOf f s = .fail b e r) :
    b = false ∧ e = parser s ∧ r = s ∧ ∀ d, s.head? = some d → f d = false := by
  cases s with
  | nil => cases h; exact ⟨rfl, rfl, rfl, fun _ h => (nomatch h)⟩
  | cons d s =>
    simp only [oneOf] at h
    by_cases hd : f d = true
    · rw [if_pos hd] at h; cases h
    · rw [if_neg hd] at h; cases h; exact ⟨rfl, rfl, rfl, fun x hx => by cases hx; simpa using hd⟩

theorem takeWhile_fail {n : Nat} {f : Char → Bool} {s r : Text} {b : Bool} {e : E} (h : takeWhile n f s = .fail b e r) :
    b = false ∧ e = parser s ∧ r = s ∧ (s.takeWhile f).length < n := by
  rw [takeWhile] at h
  by_cases hd : (s.takeWhile f).length < n
  · rw [if_pos hd] at h; cases h; exact ⟨rfl, rfl, rfl, hd⟩
  · rw [if_neg hd] at h; cases h

theorem lit_fail {w : String} {s r : Text} {b : Bool} {e : E} (h : lit w s = .fail b e r) : b = false ∧ e = parser s ∧ r = s := by
  rw [lit] at h
  cases hd : Parse.dropPrefix w.toList s with
  | some m => rw [hd] at h; cases h
  | none => rw [hd] at h; cases h; exact ⟨rfl, rfl, rfl⟩

theorem fail_fail {s r : Text} {b : Bool} {e : E} (h : (fail : F E α) s = .fail b e r) : b = false ∧ e = parser s ∧ r = s := by
  cases h; exact ⟨rfl, rfl, rfl⟩

theorem peekAny_fail {s r : Text} {b : Bool} {e : E} (h : peekAny s = .fail b e r) : b = false ∧ e = parser s ∧ r = s ∧ s = [] := by
  cases s with
  | nil => cases h; exact ⟨rfl, rfl, rfl, rfl⟩
  | cons d s => cases h

theorem decUint_fail {n : Nat} {s r : Text} {b : Bool} {e : E} (h : decUint n s = .fail b e r) : b = false ∧ e = parser s ∧ r = s := by
  rw [decUint] at h
  cases hd : Parse.decUint n s <;> (rw [hd] at h; cases h) <;> exact ⟨rfl, rfl, rfl⟩

theorem name_fail {f g : Char → Bool} {s r : Text} {b : Bool} {e : E} (h : name f g s = .fail b e r) :
    b = false ∧ e = parser s ∧ r = s ∧ ∀ d, s.head? = some d → f d = false := by
  rcases bind_fail h with h | ⟨c, m, _, h⟩
  · exact oneOf_fail h
  · rcases bind_fail h with h | ⟨_, _, _, h⟩
    · have := (takeWhile_fail h).2.2.2; omega
    · cases h

omit [FromInput E] in
theorem nameOr_fail {cause : Text → E} {f g : Char → Bool} {s r : Text} {b : Bool} {e : E} (h : nameOr cause f g s = .fail b e r) :
    b = false ∧ e = cause s ∧ r = s ∧ ∀ d, s.head? = some d → f d = false := by
  obtain ⟨e', h1, h2⟩ := mapErrAt_fail h
  obtain ⟨h3, _, h4, h5⟩ := name_fail h1
  exact ⟨h3, by rw [h2, h4], h4, h5⟩

theorem sp_run (p : F E α) (s : Text) : sp p s = p (s.dropWhile isSpace) := by
  show (takeWhile 0 isSpace >>= fun _ => p) s = _
  rw [bind_run, takeWhile, if_neg (by omega)]

theorem ws_run (p : F E α) (s : Text) : ws p s = p (s.dropWhile isMulti) := by
  show (takeWhile 0 isMulti >>= fun _ => p) s = _
  rw [bind_run, takeWhile, if_neg (by omega)]

/-- A success leaves a suffix. -/
def Suf (p : F E α) : Prop := ∀ s a r, p s = .ok a r → r <:+ s

omit [FromInput E] in
theorem suf_bind {p : F E α} {f : α → F E β} (hp : Suf p) (hf : ∀ a, Suf (f a)) : Suf (p >>= f) := fun s b r h => by
  obtain ⟨a, m, h1, h2⟩ := bind_eq_ok h
  exact (hf a _ _ _ h2).trans (hp _ _ _ h1)

theorem manyAux_fail {p : F E α} (he : Eats p) (hs : Suf p) : ∀ {n s b e r}, s.length < n → manyAux p n s = .fail b e r →
    b = true ∧ ∃ s', s' <:+ s ∧ p s' = .fail true e r
  | 0, _, _, _, _, hn, _ => by omega
  | n + 1, s, b, e, r, hn, h => by
    rw [manyAux] at h
    cases hp : p s with
    | fail b e m =>
      rw [hp] at h
      cases b with
      | false => cases h
      | true => cases h; exact ⟨rfl, s, List.suffix_refl _, hp⟩
    | ok a m =>
      rw [hp] at h
      have hl := he _ _ _ hp
      simp only [if_neg (show ¬ m.length = s.length by omega)] at h
      cases h1 : manyAux p n m with
      | ok as r' => rw [h1] at h; cases h
      | fail b' e' r' =>
        rw [h1] at h
        cases h
        obtain ⟨h2, s', h3, h4⟩ := manyAux_fail he hs (by omega) h1
        exact ⟨h2, s', h3.trans (hs _ _ _ hp), h4⟩

/-- An error of a repetition is a final error of one of the repeated. -/
theorem many_fail {p : F E α} (he : Eats p) (hs : Suf p) {s r : Text} {b : Bool} {e : E} (h : many p s = .fail b e r) :
    b = true ∧ ∃ s', s' <:+ s ∧ p s' = .fail true e r := manyAux_fail he hs (by omega) h

theorem separated1_fail {p : F E α} {sep : F E β} (he : Eats (do let _ ← sep; p)) (hp : Suf p) (hsep : Suf sep)
    (hsoft : ∀ s e r, sep s ≠ .fail true e r) {s r : Text} {b : Bool} {e : E} (h : separated1 p sep s = .fail b e r) :
    p s = .fail b e r ∨ (b = true ∧ ∃ s', s' <:+ s ∧ p s' = .fail true e r) := by
  rcases bind_fail h with h | ⟨a, m, h1, h⟩
  · exact .inl h
  · rcases bind_fail h with h | ⟨_, _, _, h⟩
    · obtain ⟨hb, s', h2, h3⟩ := many_fail he (suf_bind hsep fun _ => hp) h
      rcases bind_fail h3 with h3 | ⟨_, m', h4, h3⟩
      · exact absurd h3 (hsoft _ _ _)
      · exact .inr ⟨hb, m', (hsep _ _ _ h4).trans (h2.trans (hp _ _ _ h1)), h3⟩
    · cases h

theorem punctuateAux_fail {f : F E α} {g : F E (α × Bool)} (he : Eats f) (hs : Suf f) (s0 : Text) (I : Text → Prop)
    (hI : ∀ s a r, s <:+ s0 → f s = .ok a r → I r) (hfg : ∀ s a r, f s = .ok a r → ∃ x r', g s = .ok x r') : ∀ {n acc prev s b e r}, s.length < n → s <:+ s0 → (s = s0 ∨ I s) →
      (prev = none → s = s0) → (∀ s' acc', prev = some (s', acc') → ∃ a r, f s' = .ok a r) →
      punctuateAux f g n acc prev s = .fail b e r →
      (b = true ∧ ∃ s', s' <:+ s0 ∧ (s' = s0 ∨ I s') ∧ f s' = .fail true e r) ∨
        (b = true ∧ ∃ s', s' <:+ s0 ∧ (s' = s0 ∨ I s') ∧ g s' = .fail true e r) ∨ g s0 = .fail b e r
  | 0, _, _, _, _, _, _, hn, _, _, _, _, _ => by omega
  | n + 1, acc, prev, s, b, e, r, hn, hsuf, hi, hnone, hprev, h => by
    rw [punctuateAux_succ] at h
    cases hf : f s with
    | ok a m =>
      rw [hf] at h
      have hl := he _ _ _ hf
      simp only [if_neg (show ¬ m.length = s.length by omega)] at h
      exact punctuateAux_fail he hs s0 I hI hfg (n := n) (acc := a :: acc) (prev := some (s, acc)) (by omega)
        ((hs _ _ _ hf).trans hsuf) (.inr (hI _ _ _ hsuf hf)) (fun h => (nomatch h)) (fun s' acc' e => by cases e; exact ⟨a, m, hf⟩) h
    | fail b1 e1 m =>
      rw [hf] at h
      cases b1 with
      | true => cases h; exact .inl ⟨rfl, s, hsuf, hi, hf⟩
      | false =>
        cases hg : g s with
        | ok x m => rw [hg] at h; cases h
        | fail b2 e2 m =>
          rw [hg] at h
          cases b2 with
          | true => cases h; exact .inr (.inl ⟨rfl, s, hsuf, hi, hg⟩)
          | false =>
            cases prev with
            | none => cases h; exact .inr (.inr (hnone rfl ▸ hg))
            | some q =>
              obtain ⟨s', acc'⟩ := q
              obtain ⟨a, m', h1⟩ := hprev s' acc' rfl
              obtain ⟨x, r', h2⟩ := hfg _ _ _ h1
              simp only [h2] at h
              cases h

omit [FromInput E] in
theorem opt_ok {p : F E α} {s : Text} : (∃ o r, opt p s = .ok o r) ∨ ∃ e r, p s = .fail true e r := by
  rw [opt]
  cases hp : p s with
  | ok a m => exact .inl ⟨_, _, rfl⟩
  | fail b e m => cases b with
    | false => exact .inl ⟨_, _, rfl⟩
    | true => exact .inr ⟨_, _, rfl⟩

theorem comma_soft {s r : Text} {b : Bool} {e : E} (h : ws (chr ',' : F E Unit) s = .fail b e r) : b = false := by
  rw [ws_run] at h; exact (chr_fail h).1

omit [FromInput E] in
theorem suf_pure (a : α) : Suf (pure a : F E α) := fun s b r h => by cases h; exact List.suffix_refl _
theorem suf_chr (c : Char) : Suf (chr c : F E Unit) := fun s a r h => by
  rw [Parse.chr_eq_ok (sim_ok (sim_chr c) h)]; exact List.suffix_cons _ _
theorem suf_takeWhile (n : Nat) (f : Char → Bool) : Suf (takeWhile n f : F E Text) := fun s a r h => by
  rw [(Parse.takeWhile_eq_ok (sim_ok (sim_takeWhile n f) h)).1]; exact List.suffix_append _ _
theorem suf_sp {p : F E α} (hp : Suf p) : Suf (sp p) := suf_bind (suf_takeWhile _ _) fun _ => hp
theorem suf_ws {p : F E α} (hp : Suf p) : Suf (ws p) := suf_bind (suf_takeWhile _ _) fun _ => hp

/-- An error of a list is the error of its first element, or a final error of a later one: if a later element cannot be read,
the list ends before it. -/
theorem commaList_fail {p : F E α} (he : Eats p) (hs : Suf p) {s r : Text} {b : Bool} {e : E}
    (h : commaList p s = .fail b e r) :
    p s = .fail b e r ∨ (b = true ∧ ∃ s', s' <:+ s ∧ (s' = s ∨ ∃ y, s = y ++ ',' :: s') ∧ p s' = .fail true e r) := by
  have hmono : ∀ a : α, Mono (do ws (chr ','); pure a : F E α) := fun a =>
    mono_bind (mono_ws (mono_chr _)) fun _ => mono_pure _
  have := punctuateAux_fail (f := do let a ← p; ws (chr ','); pure a) (g := do let a ← p; let c ← opt (ws (chr ',')); pure (a, c.isSome))
    (fun s a r h => by
      obtain ⟨x, m, h1, h2⟩ := bind_eq_ok h
      have := he _ _ _ h1
      have := hmono x _ _ _ h2
      omega)
    (suf_bind hs fun a => suf_bind (suf_ws (suf_chr _)) fun _ => suf_pure _) s (fun t => ∃ y, s = y ++ ',' :: t)
    (fun t a r h1 h => by
      obtain ⟨x, m, h2, h3⟩ := bind_eq_ok h
      obtain ⟨_, m', h4, h5⟩ := bind_eq_ok h3
      cases h5
      rw [ws_run] at h4
      have h6 := Parse.chr_eq_ok (sim_ok (sim_chr _) h4)
      obtain ⟨y, hy⟩ : ',' :: r <:+ s := h6 ▸ (List.dropWhile_suffix isMulti).trans ((hs _ _ _ h2).trans h1)
      exact ⟨y, hy.symm⟩)
    (fun s a r h => by
      obtain ⟨x, m, h1, h2⟩ := bind_eq_ok h
      rcases opt_ok (p := (ws (chr ',') : F E Unit)) (s := m) with ⟨o, r', h3⟩ | ⟨e, r', h3⟩
      · exact ⟨(x, o.isSome), r', by rw [bind_run, h1]; simp only [bind_run, h3, pure_run]⟩
      · cases comma_soft h3)
    (by omega) (List.suffix_refl _) (.inl rfl) (fun _ => rfl) (fun _ _ e => by cases e) h
  rcases this with ⟨hb, s', h1, hi, h2⟩ | ⟨hb, s', h1, hi, h2⟩ | h2
  · rcases bind_fail h2 with h2 | ⟨_, _, _, h2⟩
    · exact .inr ⟨hb, s', h1, hi, h2⟩
    · rcases bind_fail h2 with h2 | ⟨_, _, _, h2⟩
      · cases comma_soft h2
      · cases h2
  · rcases bind_fail h2 with h2 | ⟨_, _, _, h2⟩
    · exact .inr ⟨hb, s', h1, hi, h2⟩
    · rcases bind_fail h2 with h2 | ⟨_, _, _, h2⟩
      · cases comma_soft (opt_fail h2).2
      · cases h2
  · rcases bind_fail h2 with h2 | ⟨_, _, _, h2⟩
    · exact .inl h2
    · rcases bind_fail h2 with h2 | ⟨_, _, _, h2⟩
      · cases comma_soft (opt_fail h2).2
      · cases h2

/-- An error between delimiters: the opening one is missing (recoverable), or what is between them is wrong, or the closing one
is missing. -/
theorem surround_fail {o c : Char} {p : F E α} {s r : Text} {b : Bool} {e : E} (h : surround o c p s = .fail b e r) :
    (b = false ∧ e = parser s ∧ ∀ d, s.head? = some d → d ≠ o) ∨
    (b = true ∧ ∃ s', s = o :: s' ∧ ((∃ b', p s' = .fail b' e r) ∨
      ∃ a m, p s' = .ok a m ∧ e = parser (m.dropWhile isMulti) ∧ r = m.dropWhile isMulti ∧ ∀ d, r.head? = some d → d ≠ c)) := by
  rcases bind_fail h with h | ⟨_, s', h1, h⟩
  · obtain ⟨h1, h2, h3, h4⟩ := chr_fail h; exact .inl ⟨h1, h2, h4⟩
  · obtain ⟨hb, b', h⟩ := cutErr_fail h
    refine .inr ⟨hb, s', Parse.chr_eq_ok (sim_ok (sim_chr o) h1), ?_⟩
    rcases bind_fail h with h | ⟨a, m, h2, h⟩
    · exact .inl ⟨_, h⟩
    · rcases bind_fail h with h | ⟨_, _, _, h⟩
      · rw [ws_run] at h
        obtain ⟨h3, h4, h5, h6⟩ := chr_fail h
        exact .inr ⟨a, m, h2, h4, h5, h5 ▸ h6⟩
      · cases h

end

end Mabo.Failing
