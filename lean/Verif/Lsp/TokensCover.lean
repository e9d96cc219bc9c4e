import Verif.Spec.Tokens
import Verif.Parser.SchemaLemmas
import Verif.Parser.LiteralsLemmas
import Verif.Parser.NumLemmas
/-! The calls of the visitor lie in the text in order, and are about the wanted items. -/
namespace Mabo.Lsp
open Mabo.Parse Mabo.Spanned Mabo.Spec
open Mabo.Schema (Prim)

/-! ### Parsers leave a suffix -/

/-- What a parser leaves is a suffix of the input. -/
def Suf {α : Type} (p : P α) : Prop := ∀ {s a r}, p s = .ok a r → r <:+ s

theorem suf_pure {α : Type} (a : α) : Suf (pure a : P α) := fun h => by
  rw [(pure_eq_ok h).2]; exact List.suffix_rfl

theorem suf_bind {α β : Type} {p : P α} {f : α → P β} (hp : Suf p) (hf : ∀ a, Suf (f a)) : Suf (p >>= f) := fun h => by
  obtain ⟨a, m, h1, h2⟩ := bind_eq_ok h
  exact (hf a h2).trans (hp h1)

theorem suf_fail {α : Type} : Suf (fail : P α) := fun h => by cases h

theorem suf_cutErr {α : Type} {p : P α} (hp : Suf p) : Suf (cutErr p) := fun h => hp (cutErr_ok.1 h)

theorem suf_opt {α : Type} {p : P α} (hp : Suf p) : Suf (opt p) := fun h => by
  rcases opt_eq_ok h with ⟨_, _, h⟩ | ⟨_, e, _⟩
  · exact hp h
  · rw [e]; exact List.suffix_rfl

theorem suf_alt {α : Type} {p q : P α} (hp : Suf p) (hq : Suf q) : Suf (alt p q) := fun h => by
  rcases alt_eq_ok h with h | ⟨_, h⟩
  · exact hp h
  · exact hq h

theorem suf_ite {α : Type} {c : Prop} [Decidable c] {p q : P α} (hp : Suf p) (hq : Suf q) : Suf (if c then p else q) := by
  by_cases h : c
  · rw [if_pos h]; exact hp
  · rw [if_neg h]; exact hq

theorem suf_lit (w : String) : Suf (lit w) := fun h => by rw [lit_eq_ok h]; exact List.suffix_append _ _
theorem suf_chr (c : Char) : Suf (chr c) := fun h => by rw [chr_eq_ok h]; exact List.suffix_cons _ _
theorem suf_oneOf (f : Char → Bool) : Suf (oneOf f) := fun h => by
  rw [(oneOf_eq_ok h).1]; exact List.suffix_cons _ _
theorem suf_takeWhile (n : Nat) (f : Char → Bool) : Suf (takeWhile n f) := fun h => by
  rw [(takeWhile_eq_ok h).1]; exact List.suffix_append _ _
theorem suf_peekAny : Suf peekAny := fun {s} _ _ h => by
  cases s with
  | nil => cases h
  | cons c s => injection h with _ h; rw [h]; exact List.suffix_rfl
theorem suf_name (f g : Char → Bool) : Suf (name f g) := fun h => by
  rw [(name_eq_ok h).1]; exact List.suffix_append _ _
theorem suf_takeWhileMax (n m : Nat) (f : Char → Bool) : Suf (takeWhileMax n m f) := fun {s} _ _ h => by
  simp only [takeWhileMax] at h
  split at h
  · cases h
  · injection h with _ h; rw [← h]; exact List.drop_suffix _ _
theorem suf_decUint (b : Nat) : Suf (decUint b) := fun h => by
  rw [(decUint_eq_ok h).1]; exact List.suffix_append _ _

theorem suf_sp {α : Type} {p : P α} (hp : Suf p) : Suf (sp p) := suf_bind (suf_takeWhile _ _) fun _ => hp
theorem suf_ws {α : Type} {p : P α} (hp : Suf p) : Suf (ws p) := suf_bind (suf_takeWhile _ _) fun _ => hp

theorem suf_many {α : Type} {p : P α} (hp : Suf p) : Suf (many p) := by
  have : ∀ n {s as r}, manyAux p n s = .ok as r → r <:+ s := by
    intro n
    induction n with
    | zero => intro s as r h; cases h
    | succ n ih =>
      intro s as r h
      rcases manyAux_eq_ok h with ⟨_, e, _⟩ | ⟨a, as', m, _, h1, h2⟩
      · rw [e]; exact List.suffix_rfl
      · exact (ih h2).trans (hp h1)
  intro s a r h; exact this _ h

theorem suf_separated1 {α β : Type} {p : P α} {q : P β} (hp : Suf p) (hq : Suf q) : Suf (separated1 p q) :=
  suf_bind hp fun _ => suf_bind (suf_many (suf_bind hq fun _ => hp)) fun _ => suf_pure _

theorem suf_taken {α : Type} {p : P α} (hp : Suf p) : Suf (taken p) := fun {s} _ _ h => by
  unfold taken at h
  cases e : p s with
  | ok a r => rw [e] at h; injection h with _ h; rw [← h]; exact hp e
  | back => rw [e] at h; cases h
  | cut => rw [e] at h; cases h

theorem suf_optSign : Suf optSign := suf_opt (suf_oneOf _)

theorem suf_floatText : Suf floatText :=
  suf_taken <| suf_bind suf_optSign fun _ => suf_bind (suf_takeWhile _ _) fun _ => suf_bind (suf_chr _) fun _ =>
    suf_bind (suf_takeWhile _ _) fun _ => suf_bind (suf_opt <| suf_bind (suf_oneOf _) fun _ => suf_bind suf_optSign fun _ =>
      suf_cutErr (suf_takeWhile _ _)) fun _ => suf_pure _

theorem suf_parseFloat (std : Std) : Suf (parseFloat std) := suf_bind suf_floatText fun _ => suf_pure _

theorem suf_parseInt : Suf parseInt :=
  suf_bind suf_optSign fun _ => suf_bind (suf_takeWhile _ _) fun _ => suf_ite (suf_pure _) suf_fail

theorem suf_parseUnicode : Suf parseUnicode :=
  suf_bind (suf_chr _) fun _ => suf_bind (suf_cutErr <| suf_bind (suf_chr _) fun _ => suf_bind (suf_takeWhileMax _ _ _) fun _ =>
    suf_bind (suf_chr _) fun _ => suf_pure _) fun ds => by
    cases charOf (hexVal ds) with
    | none => exact suf_fail
    | some c => exact suf_pure _

theorem suf_escapedChar : Suf escapedChar :=
  suf_bind suf_peekAny fun _ => by
    repeat' first
      | exact suf_parseUnicode
      | exact suf_fail
      | exact suf_bind (suf_chr _) fun _ => suf_pure _
      | refine suf_ite ?_ ?_

theorem suf_parseFragment : Suf parseFragment :=
  suf_alt (suf_takeWhile _ _) <| suf_alt (suf_bind (suf_chr _) fun _ => suf_bind suf_escapedChar fun _ => suf_pure _)
    (suf_bind (suf_chr _) fun _ => suf_bind (suf_takeWhile _ _) fun _ => suf_pure _)

theorem suf_parseString : Suf parseString :=
  suf_bind (suf_chr _) fun _ => suf_bind (suf_cutErr <| suf_bind (suf_many suf_parseFragment) fun _ =>
    suf_bind (suf_chr _) fun _ => suf_pure _) fun _ => suf_pure _

theorem suf_parseBytes : Suf parseBytes :=
  suf_bind (suf_chr _) fun _ => suf_bind (suf_cutErr <| suf_bind (suf_separated1 (suf_ws (suf_decUint _)) (suf_ws (suf_chr _)))
    fun _ => suf_bind (suf_opt (suf_ws (suf_chr _))) fun _ => suf_bind (suf_ws (suf_chr _)) fun _ => suf_pure _)
    fun _ => suf_pure _

theorem suf_parseLiteral (std : Std) : Suf (parseLiteral std) :=
  suf_bind suf_peekAny fun _ => suf_ite (suf_bind (suf_lit _) fun _ => suf_pure _) <|
    suf_ite (suf_bind (suf_lit _) fun _ => suf_pure _) <|
    suf_ite (suf_cutErr (suf_alt (suf_parseFloat std) suf_parseInt)) <|
    suf_ite suf_parseString <| suf_ite suf_parseBytes suf_fail

theorem suf_attrList {close : Char} {rec : P Ast.Attribute} (hr : Suf rec) : Suf (attrList close rec) :=
  suf_bind (suf_separated1 (suf_ws hr) (suf_ws (suf_chr _))) fun _ => suf_bind (suf_opt (suf_chr _)) fun _ =>
    suf_bind (suf_ws (suf_chr _)) fun _ => suf_pure _

theorem suf_attrDepth (std : Std) : ∀ n, Suf (attrDepth std n)
  | 0 => fun h => by cases h
  | n + 1 => suf_bind (suf_name _ _) fun _ =>
    suf_alt (suf_bind (suf_chr _) fun _ => suf_bind (suf_cutErr (suf_attrList (suf_attrDepth std n))) fun _ => suf_pure _) <|
    suf_alt (suf_bind (suf_takeWhile _ _) fun _ => suf_bind (suf_chr _) fun _ => suf_bind (suf_takeWhile _ _) fun _ =>
      suf_bind (suf_parseLiteral std) fun _ => suf_pure _) (suf_pure _)

theorem suf_parseAttributes (std : Std) : Suf (parseAttributes std) :=
  suf_bind (suf_many <| suf_bind (suf_bind (suf_lit _) fun _ => suf_bind (suf_chr _) fun _ =>
    suf_cutErr (suf_attrList fun h => suf_attrDepth std _ h)) fun _ => suf_bind (suf_chr _) fun _ => suf_pure _)
    fun _ => suf_pure _

/-! ### A literal's own text -/

theorem isDigit_ne {c : Char} (h : isDigit c = true) : c ≠ '\n' := by rintro rfl; exact absurd h (by decide)

theorem digits_no_newline {w : Text} (h : ∀ c ∈ w, isDigit c = true) : '\n' ∉ w := fun hm => isDigit_ne (h _ hm) rfl

theorem optSign_slice {s m : Text} {o : Option Char} (h : optSign s = .ok o m) : ∃ sign, s = sign ++ m ∧ '\n' ∉ sign ∧
    ∀ d x, isDigit d = true → optSign (sign ++ d :: x) = .ok o (d :: x) := by
  rcases opt_eq_ok h with ⟨c, rfl, h'⟩ | ⟨rfl, rfl, _⟩
  · obtain ⟨rfl, hc⟩ := oneOf_eq_ok h'
    refine ⟨[c], rfl, ?_, fun d x _ => opt_some (oneOf_ok hc _)⟩
    intro hn
    rw [← List.mem_singleton.1 hn] at hc
    exact absurd hc (by decide)
  · exact ⟨[], rfl, by simp, fun d x hd => optSign_digit hd⟩

theorem digits1_slice {s w m : Text} (h : takeWhile 1 isDigit s = .ok w m) : ∃ d ds, w = d :: ds ∧ s = d :: (ds ++ m) ∧
    isDigit d = true ∧ (∀ c ∈ ds, isDigit c = true) ∧ Stop isDigit m := by
  obtain ⟨rfl, h1, h2, h3⟩ := takeWhile_eq_ok h
  cases w with
  | nil => simp at h3
  | cons d ds => exact ⟨d, ds, rfl, rfl, h1 d (by simp), fun c hc => h1 c (by simp [hc]), h2⟩

theorem digits1_run {d : Char} {ds m : Text} (hd : isDigit d = true) (hds : ∀ c ∈ ds, isDigit c = true)
    (hm : Stop isDigit m) : takeWhile 1 isDigit (d :: (ds ++ m)) = .ok (d :: ds) m := by
  refine takeWhile_ok (w := d :: ds) (fun c hc => ?_) hm (by simp)
  rcases List.mem_cons.1 hc with rfl | hc
  · exact hd
  · exact hds c hc

/-- The exponent of a float, literals.rs:130. -/
def exponent : P (Option Text) := opt (do
    let _ ← oneOf fun c => c == 'e' || c == 'E'
    let _ ← optSign
    cutErr (takeWhile 1 isDigit))

theorem exponent_slice {s m : Text} {o : Option Text} (h : exponent s = .ok o m) : ∃ w, s = w ++ m ∧ '\n' ∉ w ∧
    exponent w = .ok o [] ∧ Stop isDigit w := by
  rcases opt_eq_ok h with ⟨ds, rfl, h'⟩ | ⟨rfl, rfl, _⟩
  · clear h
    obtain ⟨e, m1, h1, h3⟩ := bind_eq_ok h'
    obtain ⟨o, m2, h2, h4⟩ := bind_eq_ok h3
    obtain ⟨rfl, he⟩ := oneOf_eq_ok h1
    obtain ⟨sign, rfl, hs1, hs2⟩ := optSign_slice h2
    obtain ⟨d, ds', rfl, rfl, hd, hds, hst⟩ := digits1_slice (cutErr_ok.1 h4)
    refine ⟨e :: (sign ++ d :: ds'), by simp, ?_, ?_, ?_⟩
    · have : e ≠ '\n' := by rintro rfl; exact absurd he (by decide)
      simp only [List.mem_cons, List.mem_append, not_or]
      exact ⟨this.symm, hs1, (isDigit_ne hd).symm, digits_no_newline hds⟩
    · refine opt_some ?_
      rw [bind_ok (oneOf_ok he _), bind_ok (hs2 d ds' hd), cutErr_ok]
      have := digits1_run hd hds (stop_nil _)
      rwa [List.append_nil] at this
    · refine stop_cons.2 ?_
      cases hdg : isDigit e with
      | false => rfl
      | true =>
        exfalso
        have h1 := (isDigit_iff e).1 hdg
        have : ∀ c ∈ digits, (c == 'e' || c == 'E') = false := by decide
        rw [this e h1] at he; cases he
  · exact ⟨[], rfl, by simp, rfl, stop_nil _⟩

theorem floatText_slice {s r t : Text} (h : floatText s = .ok t r) : ∃ v, s = v ++ r ∧ v ≠ [] ∧ '\n' ∉ v ∧
    t = v ∧ floatText v = .ok v [] := by
  have hsuf := suf_floatText h
  unfold floatText taken at h
  split at h
  · rename_i a r' he
    injection h with h1 h2
    subst h2
    obtain ⟨o, m1, g1, g⟩ := bind_eq_ok he
    obtain ⟨w1, m2, g2, g⟩ := bind_eq_ok g
    obtain ⟨_, m3, g3, g⟩ := bind_eq_ok g
    obtain ⟨w2, m4, g4, g⟩ := bind_eq_ok g
    obtain ⟨o2, m5, g5, g⟩ := bind_eq_ok g
    obtain ⟨-, rfl⟩ := pure_eq_ok g
    obtain ⟨sign, rfl, s1, s2⟩ := optSign_slice g1
    obtain ⟨d, ds, rfl, rfl, hd, hds, hst⟩ := digits1_slice g2
    have e3 := chr_eq_ok g3
    subst e3
    obtain ⟨d', ds', rfl, rfl, hd', hds', hst'⟩ := digits1_slice g4
    obtain ⟨w, rfl, w1, w2, w3⟩ := exponent_slice g5
    have hv : (sign ++ d :: (ds ++ '.' :: d' :: (ds' ++ (w ++ m5)))) = (sign ++ d :: (ds ++ '.' :: d' :: (ds' ++ w))) ++ m5 := by
      simp
    have ht : t = sign ++ d :: (ds ++ '.' :: d' :: (ds' ++ w)) := by
      rw [← h1, hv, List.length_append, Nat.add_sub_cancel, List.take_left]
    refine ⟨_, hv, by simp, ?_, ht, ?_⟩
    · simp only [List.mem_cons, List.mem_append, not_or]
      exact ⟨s1, (isDigit_ne hd).symm, digits_no_newline hds, by decide, (isDigit_ne hd').symm, digits_no_newline hds', w1⟩
    · have key : (do
          let _ ← optSign
          let _ ← takeWhile 1 isDigit
          chr '.'
          let _ ← takeWhile 1 isDigit
          let _ ← exponent
          pure () : P Unit) (sign ++ d :: (ds ++ '.' :: d' :: (ds' ++ w))) = .ok () [] := by
        rw [bind_ok (s2 d _ hd), bind_ok (digits1_run hd hds (stop_cons.2 (by decide))), bind_ok (chr_ok _ _),
          bind_ok (digits1_run hd' hds' w3), bind_ok w2]
        rfl
      have := taken_ok (w := sign ++ d :: (ds ++ '.' :: d' :: (ds' ++ w))) (r := []) (by rw [List.append_nil]; exact key)
      rw [List.append_nil] at this
      exact this
  · cases h
  · cases h

/-- A number literal is the text that is read as it. -/
theorem number_slice (std : Std) {s r : Text} {l : Ast.Literal} (h : alt (parseFloat std) parseInt s = .ok l r) :
    ∃ v, s = v ++ r ∧ v ≠ [] ∧ '\n' ∉ v ∧ alt (parseFloat std) parseInt v = .ok l [] := by
  rcases alt_eq_ok h with h | ⟨_, h⟩
  · obtain ⟨t, m, h1, h⟩ := bind_eq_ok h
    obtain ⟨rfl, rfl⟩ := pure_eq_ok h
    obtain ⟨v, e, hv, hn, rfl, h2⟩ := floatText_slice h1
    exact ⟨t, e, hv, hn, alt_left (by unfold parseFloat; rw [bind_ok h2]; rfl)⟩
  · obtain ⟨o, m1, h1, h3⟩ := bind_eq_ok h
    obtain ⟨w, m2, h2, h4⟩ := bind_eq_ok h3
    obtain ⟨sign, rfl, s1, s2⟩ := optSign_slice h1
    obtain ⟨d, ds, rfl, rfl, hd, hds, hst⟩ := digits1_slice h2
    by_cases hr : -2 ^ 127 ≤ intVal o (d :: ds) ∧ intVal o (d :: ds) < 2 ^ 127
    · simp only [if_pos hr] at h4
      obtain ⟨rfl, rfl⟩ := pure_eq_ok h4
      have hdig := digits1_run hd hds (stop_nil _)
      rw [List.append_nil] at hdig
      refine ⟨sign ++ d :: ds, by simp, by simp, ?_, ?_⟩
      · simp only [List.mem_cons, List.mem_append, not_or]
        exact ⟨s1, (isDigit_ne hd).symm, digits_no_newline hds⟩
      · have hb : parseFloat std (sign ++ d :: ds) = .back := by
          refine bind_back ?_
          unfold floatText taken
          rw [bind_ok (s2 d ds hd), bind_ok hdig]
          rfl
        rw [alt_right hb]
        unfold parseInt
        rw [bind_ok (s2 d ds hd), bind_ok hdig]
        simp only [if_pos hr]; rfl
    · simp only [if_neg hr] at h4; cases h4

theorem literal_slice (std : Std) {s r : Text} {l : Ast.Literal} (h : parseLiteral std s = .ok l r)
    (hl : (∃ b, l = .bool b) ∨ (∃ i, l = .int i) ∨ ∃ f, l = .float f) :
    ∃ v, s = v ++ r ∧ v ≠ [] ∧ '\n' ∉ v ∧ parseLiteral std v = .ok l [] := by
  obtain ⟨c, m, h0, h1⟩ := bind_eq_ok h
  cases s with
  | nil => cases h0
  | cons c' s =>
    injection h0 with e1 e2
    subst e1 e2
    split at h1
    · obtain ⟨_, m, h2, h3⟩ := bind_eq_ok h1
      obtain ⟨rfl, rfl⟩ := pure_eq_ok h3
      exact ⟨"true".toList, lit_eq_ok h2, by decide, by decide, rfl⟩
    split at h1
    · obtain ⟨_, m, h2, h3⟩ := bind_eq_ok h1
      obtain ⟨rfl, rfl⟩ := pure_eq_ok h3
      exact ⟨"false".toList, lit_eq_ok h2, by decide, by decide, rfl⟩
    rename_i n1 n2
    split at h1
    · rename_i hc
      obtain ⟨v, e, hv, hn, h2⟩ := number_slice std (cutErr_ok.1 h1)
      cases v with
      | nil => exact absurd rfl hv
      | cons c v =>
        injection e with e1 e2
        subst e1
        refine ⟨c' :: v, by rw [e2]; rfl, hv, hn, ?_⟩
        unfold parseLiteral
        rw [bind_ok (peekAny_cons _ _), if_neg n1, if_neg n2, if_pos hc, cutErr_ok]
        exact h2
    split at h1
    · obtain ⟨_, _, _, h2⟩ := bind_eq_ok h1
      obtain ⟨_, _, _, h3⟩ := bind_eq_ok h2
      rw [← (pure_eq_ok h3).1] at hl
      rcases hl with ⟨_, hl⟩ | ⟨_, hl⟩ | ⟨_, hl⟩ <;> cases hl
    split at h1
    · obtain ⟨_, _, _, h2⟩ := bind_eq_ok h1
      obtain ⟨_, _, _, h3⟩ := bind_eq_ok h2
      rw [← (pure_eq_ok h3).1] at hl
      rcases hl with ⟨_, hl⟩ | ⟨_, hl⟩ | ⟨_, hl⟩ <;> cases hl
    · cases h1

end Mabo.Lsp
