import Verif.Parser.Report
import Verif.Parser.ErrorsDefs
/-!
All places in an error of the parser are places of the text that was parsed.
-/
namespace Mabo.Failing
open Mabo.Parse (Text Std isSpace isMulti isLower isUpper isDigit isAlnum)
open Mabo.Ast

theorem bytes_add (a b : Text) : bytes (a ++ b) = bytes a + bytes b := by simp [bytes]

theorem bytes_suffix {r s : Text} (h : r <:+ s) : bytes r ≤ bytes s := by
  obtain ⟨t, rfl⟩ := h
  rw [bytes_add]; omega

/-- The range is one of this text. -/
def At.In (s : Text) (a : At) : Prop :=
  a.start <:+ s ∧ match a.stop with
    | .here r => r <:+ s
    | .offset n => n ≤ bytes s

theorem At.In.mono {s s' : Text} {a : At} (h : s <:+ s') (ha : a.In s) : a.In s' := by
  refine ⟨ha.1.trans h, ?_⟩
  have := ha.2
  cases hs : a.stop with
  | here r => rw [hs] at this; exact List.IsSuffix.trans this h
  | offset n => rw [hs] at this; exact Nat.le_trans this (bytes_suffix h)

theorem atStop_in {s r : Text} (h : r <:+ s) : (atStop r).In s := ⟨h, h⟩

theorem offsetFor_lt {c : Char} : ∀ {s : Text} {n : Nat}, offsetFor c s = some n → n + 1 ≤ bytes s
  | [], n, h => by cases h
  | d :: s, n, h => by
    rw [offsetFor] at h
    have hd : 1 ≤ d.utf8Size := Char.utf8Size_pos d
    have hb : bytes (d :: s) = d.utf8Size + bytes s := by simp [bytes]
    split at h
    · cases h; omega
    · cases ho : offsetFor c s with
      | none => rw [ho] at h; cases h
      | some m => rw [ho, Option.map_some, Option.some.injEq] at h; have := offsetFor_lt ho; omega

theorem fromUntil_in (cs : List Char) (s : Text) : (fromUntil cs s).In s := by
  refine ⟨List.suffix_refl _, ?_⟩
  show match (fromUntil cs s).stop with
    | .here r => r <:+ s
    | .offset n => n ≤ bytes s
  rw [fromUntil]
  cases h : cs.findSome? fun c => offsetFor c s with
  | none => exact List.suffix_refl _
  | some n =>
    obtain ⟨c, _, hc⟩ := List.exists_of_findSome?_eq_some h
    exact offsetFor_lt hc

/-- An error type: the places in its values, and what holds for all of them (errors of comments do not occur, and those of ids
have one place). -/
class Places (E : Type) where
  places : E → List At
  sound : E → Prop

export Places (places sound)

/-- The error has only places of this text. -/
def Within {E : Type} [Places E] (s : Text) (e : E) : Prop := (∀ a ∈ places e, a.In s) ∧ sound e

theorem Within.mono {E : Type} [Places E] {s s' : Text} {e : E} (h : s <:+ s') (he : Within s e) : Within s' e :=
  ⟨fun a ha => (he.1 a ha).mono h, he.2⟩

/-- The unspecific error has only the place where it is made. -/
class Plain (E : Type) [Places E] [FromInput E] : Prop where
  places_parser : ∀ s : Text, Within s (parser s : E)

/-- A parser that stops in its input and whose errors are in its input. -/
def Stays {E α : Type} [Places E] (p : F E α) : Prop :=
  ∀ s, (∀ a r, p s = .ok a r → r <:+ s) ∧ ∀ b e r, p s = .fail b e r → r <:+ s ∧ Within s e

section
variable {E E' α β : Type} [Places E] [Places E']

theorem stays_pure (a : α) : Stays (pure a : F E α) := fun s =>
  ⟨fun a r h => by cases h; exact List.suffix_refl _, fun _ _ _ h => (nomatch h)⟩

theorem stays_bind {p : F E α} {f : α → F E β} (hp : Stays p) (hf : ∀ a, Stays (f a)) : Stays (p >>= f) := fun s => by
  have h1 := hp s
  rw [bind_run]
  cases h : p s with
  | ok a r =>
    have hr := h1.1 a r h
    exact ⟨fun b r' h' => ((hf a r).1 b r' h').trans hr,
      fun b e r' h' => ⟨((hf a r).2 b e r' h').1.trans hr, ((hf a r).2 b e r' h').2.mono hr⟩⟩
  | fail b e r =>
    refine ⟨fun _ _ h' => (nomatch h'), fun b' e' r' h' => ?_⟩
    cases h'
    exact h1.2 _ _ _ h

theorem stays_mapErr {f : E → E'} {p : F E α} (hp : Stays p) (hf : ∀ s e, Within s e → Within s (f e)) : Stays (mapErr f p) :=
  fun s => by
  have h1 := hp s
  rw [mapErr]
  cases h : p s with
  | ok a r => exact ⟨fun _ _ h' => by cases h'; exact h1.1 _ _ h, fun _ _ _ h' => (nomatch h')⟩
  | fail b e r =>
    refine ⟨fun _ _ h' => (nomatch h'), fun b' e' r' h' => ?_⟩
    cases h'
    exact ⟨(h1.2 _ _ _ h).1, hf _ _ (h1.2 _ _ _ h).2⟩

theorem stays_mapErrAt {f : Text → Text → E → E'} {p : F E α} (hp : Stays p)
    (hf : ∀ s r e, r <:+ s → Within s e → Within s (f s r e)) : Stays (mapErrAt f p) := fun s => by
  have h1 := hp s
  rw [mapErrAt]
  cases h : p s with
  | ok a r => exact ⟨fun _ _ h' => by cases h'; exact h1.1 _ _ h, fun _ _ _ h' => (nomatch h')⟩
  | fail b e r =>
    refine ⟨fun _ _ h' => (nomatch h'), fun b' e' r' h' => ?_⟩
    cases h'
    exact ⟨(h1.2 _ _ _ h).1, hf _ _ _ (h1.2 _ _ _ h).1 (h1.2 _ _ _ h).2⟩

theorem stays_cutErr {p : F E α} (hp : Stays p) : Stays (cutErr p) := fun s => by
  have h1 := hp s
  rw [cutErr]
  cases h : p s with
  | ok a r => exact ⟨fun _ _ h' => by cases h'; exact h1.1 _ _ h, fun _ _ _ h' => (nomatch h')⟩
  | fail b e r =>
    refine ⟨fun _ _ h' => (nomatch h'), fun b' e' r' h' => ?_⟩
    cases h'
    exact h1.2 _ _ _ h

theorem stays_opt {p : F E α} (hp : Stays p) : Stays (opt p) := fun s => by
  have h1 := hp s
  rw [opt]
  cases h : p s with
  | ok a r => exact ⟨fun _ _ h' => by cases h'; exact h1.1 _ _ h, fun _ _ _ h' => (nomatch h')⟩
  | fail b e r =>
    cases b with
    | false => exact ⟨fun _ _ h' => by cases h'; exact List.suffix_refl _, fun _ _ _ h' => (nomatch h')⟩
    | true =>
      refine ⟨fun _ _ h' => (nomatch h'), fun b' e' r' h' => ?_⟩
      cases h'
      exact h1.2 _ _ _ h

theorem stays_alt {p q : F E α} (hp : Stays p) (hq : Stays q) : Stays (alt p q) := fun s => by
  have h1 := hp s
  rw [alt]
  cases h : p s with
  | ok a r => exact ⟨fun _ _ h' => by cases h'; exact h1.1 _ _ h, fun _ _ _ h' => (nomatch h')⟩
  | fail b e r =>
    cases b with
    | false => exact hq s
    | true =>
      refine ⟨fun _ _ h' => (nomatch h'), fun b' e' r' h' => ?_⟩
      cases h'
      exact h1.2 _ _ _ h

theorem stays_ite {c : Prop} [Decidable c] {p q : F E α} (hp : Stays p) (hq : Stays q) : Stays (if c then p else q) := by
  split
  · exact hp
  · exact hq

theorem stays_taken {p : F E α} (hp : Stays p) : Stays (taken p) := fun s => by
  have h1 := hp s
  rw [taken]
  cases h : p s with
  | ok a r => exact ⟨fun _ _ h' => by cases h'; exact h1.1 _ _ h, fun _ _ _ h' => (nomatch h')⟩
  | fail b e r =>
    refine ⟨fun _ _ h' => (nomatch h'), fun b' e' r' h' => ?_⟩
    cases h'
    exact h1.2 _ _ _ h

variable [FromInput E] [Plain E]

theorem here_in (s : Text) : s <:+ s ∧ Within s (parser s : E) := ⟨List.suffix_refl _, Plain.places_parser s⟩

theorem stays_fail : Stays (fail : F E α) := fun s =>
  ⟨fun _ _ h => (nomatch h), fun _ _ _ h => by cases h; exact here_in s⟩

theorem stays_of {p : F E α} (hs : ∀ s a r, p s = .ok a r → r <:+ s)
    (hf : ∀ s b e r, p s = .fail b e r → e = parser s ∧ r = s) : Stays p := fun s =>
  ⟨hs s, fun b e r h => by obtain ⟨rfl, rfl⟩ := hf s b e r h; exact here_in _⟩

theorem stays_chr (c : Char) : Stays (chr c : F E Unit) :=
  stays_of (suf_chr c) fun _ _ _ _ h => ⟨(chr_fail h).2.1, (chr_fail h).2.2.1⟩

theorem stays_lit (w : String) : Stays (lit w : F E Unit) :=
  stays_of (fun s a r h => by
    rw [lit] at h
    cases hd : Parse.dropPrefix w.toList s with
    | none => rw [hd] at h; cases h
    | some r' => rw [hd] at h; cases h; exact ⟨_, (Parse.dropPrefix_eq_some hd).symm⟩) fun _ _ _ _ h => (lit_fail h).2

theorem stays_oneOf (f : Char → Bool) : Stays (oneOf f : F E Char) :=
  stays_of (fun s a r h => by
    cases s with
    | nil => cases h
    | cons d s =>
      rw [oneOf] at h
      split at h
      · cases h; exact List.suffix_cons _ _
      · cases h) fun _ _ _ _ h => ⟨(oneOf_fail h).2.1, (oneOf_fail h).2.2.1⟩

theorem stays_peekAny : Stays (peekAny : F E Char) :=
  stays_of (fun s a r h => by
    cases s with
    | nil => cases h
    | cons d s => cases h; exact List.suffix_refl _) fun _ _ _ _ h => ⟨(peekAny_fail h).2.1, (peekAny_fail h).2.2.1⟩

theorem stays_takeWhile (n : Nat) (f : Char → Bool) : Stays (takeWhile n f : F E Text) :=
  stays_of (suf_takeWhile n f) fun _ _ _ _ h => ⟨(takeWhile_fail h).2.1, (takeWhile_fail h).2.2.1⟩

theorem stays_takeWhileMax (n m : Nat) (f : Char → Bool) : Stays (takeWhileMax n m f : F E Text) := fun s => by
  simp only [takeWhileMax]
  split
  · exact ⟨fun _ _ h => (nomatch h), fun _ _ _ h => by cases h; exact here_in s⟩
  · exact ⟨fun _ _ h => by cases h; exact List.drop_suffix _ _, fun _ _ _ h => (nomatch h)⟩

theorem stays_decUint (n : Nat) : Stays (decUint n : F E Nat) :=
  stays_of (fun s a r h => by
    rw [decUint] at h
    cases hd : Parse.decUint n s with
    | ok m r' => rw [hd] at h; cases h; exact Lsp.suf_decUint n hd
    | back => rw [hd] at h; cases h
    | cut => rw [hd] at h; cases h) fun _ _ _ _ h => (decUint_fail h).2

theorem stays_sp {p : F E α} (hp : Stays p) : Stays (sp p) := stays_bind (stays_takeWhile _ _) fun _ => hp
theorem stays_ws {p : F E α} (hp : Stays p) : Stays (ws p) := stays_bind (stays_takeWhile _ _) fun _ => hp

theorem stays_manyAux {p : F E α} (hp : Stays p) : ∀ n, Stays (manyAux p n)
  | 0 => fun s => ⟨fun _ _ h => (nomatch h), fun _ _ _ h => by cases h; exact here_in s⟩
  | n + 1 => fun s => by
    have h1 := hp s
    rw [manyAux]
    cases h : p s with
    | ok a r =>
      have hr := h1.1 _ _ h
      simp only
      split
      · refine ⟨fun _ _ h' => (nomatch h'), fun _ _ _ h' => ?_⟩
        cases h'
        exact ⟨hr, (here_in r).2.mono hr⟩
      · have h2 := stays_manyAux hp n r
        cases h' : manyAux p n r with
        | ok as r' => exact ⟨fun _ _ h3 => by cases h3; exact (h2.1 _ _ h').trans hr, fun _ _ _ h3 => (nomatch h3)⟩
        | fail b e r' =>
          refine ⟨fun _ _ h3 => (nomatch h3), fun _ _ _ h3 => ?_⟩
          cases h3
          exact ⟨(h2.2 _ _ _ h').1.trans hr, (h2.2 _ _ _ h').2.mono hr⟩
    | fail b e r =>
      cases b with
      | false => exact ⟨fun _ _ h3 => by cases h3; exact List.suffix_refl _, fun _ _ _ h3 => (nomatch h3)⟩
      | true =>
        refine ⟨fun _ _ h3 => (nomatch h3), fun _ _ _ h3 => ?_⟩
        cases h3
        exact h1.2 _ _ _ h

theorem stays_many {p : F E α} (hp : Stays p) : Stays (many p) := fun s => stays_manyAux hp _ s

theorem stays_many1 {p : F E α} (hp : Stays p) : Stays (many1 p) :=
  stays_bind hp fun _ => stays_bind (stays_many hp) fun _ => stays_pure _

theorem stays_separated1 {p : F E α} {sep : F E β} (hp : Stays p) (hs : Stays sep) : Stays (separated1 p sep) :=
  stays_bind hp fun _ => stays_bind (stays_many (stays_bind hs fun _ => hp)) fun _ => stays_pure _

theorem stays_punctuateAux {f : F E α} {g : F E (α × Bool)} (hf : Stays f) (hg : Stays g) (s0 : Text) :
    ∀ (n : Nat) (acc : List α) (prev : Option (Text × List α)) (s : Text), s <:+ s0 →
      (∀ s' acc', prev = some (s', acc') → s' <:+ s0) →
      (∀ a r, punctuateAux f g n acc prev s = .ok a r → r <:+ s0) ∧
      ∀ b e r, punctuateAux f g n acc prev s = .fail b e r → r <:+ s0 ∧ Within s0 e
  | 0, acc, prev, s, hs, hprev => ⟨fun _ _ h => (nomatch h), fun _ _ _ h => by cases h; exact ⟨hs, (here_in s).2.mono hs⟩⟩
  | n + 1, acc, prev, s, hs, hprev => by
    have h1 := hf s
    rw [punctuateAux_succ]
    cases h : f s with
    | ok a r =>
      have hr := (h1.1 _ _ h).trans hs
      simp only
      split
      · refine ⟨fun _ _ h' => (nomatch h'), fun _ _ _ h' => ?_⟩
        cases h'
        exact ⟨hr, (here_in r).2.mono hr⟩
      · refine stays_punctuateAux hf hg s0 n _ _ r hr fun s' acc' h' => ?_
        cases h'
        exact hs
    | fail b e r =>
      cases b with
      | true =>
        refine ⟨fun _ _ h3 => (nomatch h3), fun _ _ _ h3 => ?_⟩
        cases h3
        exact ⟨(h1.2 _ _ _ h).1.trans hs, (h1.2 _ _ _ h).2.mono hs⟩
      | false =>
        have h2 := hg s
        simp only
        cases hgs : g s with
        | ok a r => exact ⟨fun _ _ h3 => by cases h3; exact (h2.1 _ _ hgs).trans hs, fun _ _ _ h3 => (nomatch h3)⟩
        | fail b' e' r' =>
          have h4 := h2.2 _ _ _ hgs
          cases b' with
          | true =>
            refine ⟨fun _ _ h3 => (nomatch h3), fun _ _ _ h3 => ?_⟩
            cases h3
            exact ⟨h4.1.trans hs, h4.2.mono hs⟩
          | false =>
            cases hpv : prev with
            | none =>
              refine ⟨fun _ _ h3 => (nomatch h3), fun _ _ _ h3 => ?_⟩
              cases h3
              exact ⟨h4.1.trans hs, h4.2.mono hs⟩
            | some q =>
              obtain ⟨s', acc'⟩ := q
              have hs' := hprev s' acc' hpv
              have h5 := hg s'
              simp only
              cases hgs' : g s' with
              | ok a r => exact ⟨fun _ _ h3 => by cases h3; exact (h5.1 _ _ hgs').trans hs', fun _ _ _ h3 => (nomatch h3)⟩
              | fail b'' e'' r'' =>
                refine ⟨fun _ _ h3 => (nomatch h3), fun _ _ _ h3 => ?_⟩
                cases h3
                exact ⟨(h5.2 _ _ _ hgs').1.trans hs', (h5.2 _ _ _ hgs').2.mono hs'⟩

theorem stays_commaList {p : F E α} (hp : Stays p) : Stays (commaList p) := fun s =>
  stays_punctuateAux (stays_bind hp fun _ => stays_bind (stays_ws (stays_chr _)) fun _ => stays_pure _)
    (stays_bind hp fun _ => stays_bind (stays_opt (stays_ws (stays_chr _))) fun _ => stays_pure _) s _ _ _ s (List.suffix_refl _)
    fun _ _ h => (nomatch h)

theorem stays_surround {o c : Char} {p : F E α} (hp : Stays p) : Stays (surround o c p) :=
  stays_bind (stays_chr _) fun _ => stays_cutErr (stays_bind hp fun _ => stays_bind (stays_ws (stays_chr _)) fun _ => stays_pure _)

theorem stays_name (f g : Char → Bool) : Stays (name f g : F E String) :=
  stays_bind (stays_oneOf _) fun _ => stays_bind (stays_takeWhile _ _) fun _ => stays_pure _

end

end Mabo.Failing
