import Verif.Parser.ErrorsGood
import Verif.Parser.SufLemmas
import Verif.Parser.TypesRound
import Verif.Spec.Errors
/-! What the errors of types, literals and attributes say. -/
namespace Mabo.Failing
open Mabo.Parse (Text Res P Std isSpace isMulti isLower isUpper isDigit isAlnum)
open Mabo.Ast Mabo.Spec.Errors

/-! ### Composition -/

section
variable {E E' α β : Type}

theorem suf_sim {p : F E α} {q : P α} (h : Sim p q) (hq : Lsp.Suf q) : Suf p := fun _ _ _ hp => hq (sim_ok h hp)

/-- Every error on an input shorter than `n` has a property. -/
def Fails (n : Nat) (Q : Text → E → Prop) (p : F E α) : Prop := ∀ s, s.length < n → ∀ b e r, p s = .fail b e r → Q s e

/-- A property that a place keeps when the text starts earlier. -/
def Up (Q : Text → E → Prop) : Prop := ∀ s s' e, s' <:+ s → Q s' e → Q s e

/-- A property of the unspecific error. -/
def Base [FromInput E] (Q : Text → E → Prop) : Prop := ∀ s, Q s (parser s)

theorem fails_le {n m : Nat} {Q : Text → E → Prop} {p : F E α} (h : Fails n Q p) (hm : m ≤ n) : Fails m Q p :=
  fun s hs => h s (by omega)

theorem fails_bind {n : Nat} {Q : Text → E → Prop} (up : Up Q) {p : F E α} {f : α → F E β} (hp : Fails n Q p) (hs : Suf p)
    (hf : ∀ a, Fails n Q (f a)) : Fails n Q (p >>= f) := fun s hn b e r h => by
  rcases bind_fail h with h | ⟨a, m, h1, h⟩
  · exact hp s hn _ _ _ h
  · have hm := hs _ _ _ h1
    exact up _ _ _ hm (hf a m (by have := hm.length_le; omega) _ _ _ h)

theorem fails_eats {n : Nat} {Q : Text → E → Prop} (up : Up Q) {p : F E α} {f : α → F E β} (hp : Fails (n + 1) Q p) (hs : Suf p)
    (he : Eats p) (hf : ∀ a, Fails n Q (f a)) : Fails (n + 1) Q (p >>= f) := fun s hn b e r h => by
  rcases bind_fail h with h | ⟨a, m, h1, h⟩
  · exact hp s hn _ _ _ h
  · exact up _ _ _ (hs _ _ _ h1) (hf a m (by have := he _ _ _ h1; omega) _ _ _ h)

theorem fails_pure {n : Nat} {Q : Text → E → Prop} (a : α) : Fails n Q (pure a : F E α) := fun _ _ _ _ _ h => (nomatch h)

theorem fails_alt {n : Nat} {Q : Text → E → Prop} {p q : F E α} (hp : Fails n Q p) (hq : Fails n Q q) : Fails n Q (alt p q) :=
  fun s hn b e r h => by
    rcases alt_fail h with ⟨_, h⟩ | h
    · exact hp s hn _ _ _ h
    · exact hq s hn _ _ _ h

theorem fails_opt {n : Nat} {Q : Text → E → Prop} {p : F E α} (hp : Fails n Q p) : Fails n Q (opt p) :=
  fun s hn b e r h => hp s hn _ _ _ (opt_fail h).2

theorem fails_cutErr {n : Nat} {Q : Text → E → Prop} {p : F E α} (hp : Fails n Q p) : Fails n Q (cutErr p) :=
  fun s hn b e r h => hp s hn _ _ _ (cutErr_fail h).2.choose_spec

theorem fails_ite {n : Nat} {Q : Text → E → Prop} {c : Prop} [Decidable c] {p q : F E α} (hp : Fails n Q p) (hq : Fails n Q q) :
    Fails n Q (if c then p else q) := by
  by_cases hc : c <;> simp only [hc, if_true, if_false] <;> assumption

theorem fails_mapErr {n : Nat} {Q : Text → E → Prop} {Q' : Text → E' → Prop} {f : E → E'} {p : F E α} (hp : Fails n Q p)
    (hf : ∀ s e, Q s e → Q' s (f e)) : Fails n Q' (mapErr f p) := fun s hn b e r h => by
  obtain ⟨e', h1, rfl⟩ := mapErr_fail h
  exact hf s e' (hp s hn _ _ _ h1)

variable [FromInput E] {n : Nat} {Q : Text → E → Prop}

theorem fails_chr (base : Base Q) (c : Char) : Fails n Q (chr c : F E Unit) := fun s _ b e r h => by
  rw [(chr_fail h).2.1]; exact base s
theorem fails_oneOf (base : Base Q) (f : Char → Bool) : Fails n Q (oneOf f : F E Char) := fun s _ b e r h => by
  rw [(oneOf_fail h).2.1]; exact base s
theorem fails_takeWhile (base : Base Q) (m : Nat) (f : Char → Bool) : Fails n Q (takeWhile m f : F E Text) := fun s _ b e r h => by
  rw [(takeWhile_fail h).2.1]; exact base s
theorem fails_takeWhileMax (base : Base Q) (m k : Nat) (f : Char → Bool) : Fails n Q (takeWhileMax m k f : F E Text) :=
  fun s _ b e r h => by
    rw [takeWhileMax] at h
    by_cases hc : ((s.takeWhile f).take k).length < m
    · rw [if_pos hc] at h; cases h; exact base s
    · rw [if_neg hc] at h; cases h
theorem fails_lit (base : Base Q) (w : String) : Fails n Q (lit w : F E Unit) := fun s _ b e r h => by
  rw [(lit_fail h).2.1]; exact base s
theorem fails_fail (base : Base Q) : Fails n Q (fail : F E α) := fun s _ b e r h => by
  rw [(fail_fail h).2.1]; exact base s
theorem fails_peekAny (base : Base Q) : Fails n Q (peekAny : F E Char) := fun s _ b e r h => by
  rw [(peekAny_fail h).2.1]; exact base s
theorem fails_decUint (base : Base Q) (m : Nat) : Fails n Q (decUint m : F E Nat) := fun s _ b e r h => by
  rw [(decUint_fail h).2.1]; exact base s
theorem fails_name (base : Base Q) (f g : Char → Bool) : Fails n Q (name f g : F E String) := fun s _ b e r h => by
  rw [(name_fail h).2.1]; exact base s

theorem fails_sp (up : Up Q) (base : Base Q) {p : F E α} (hp : Fails n Q p) : Fails n Q (sp p) :=
  fails_bind up (fails_takeWhile base _ _) (suf_takeWhile _ _) fun _ => hp
theorem fails_ws (up : Up Q) (base : Base Q) {p : F E α} (hp : Fails n Q p) : Fails n Q (ws p) :=
  fails_bind up (fails_takeWhile base _ _) (suf_takeWhile _ _) fun _ => hp

theorem fails_many (up : Up Q) {p : F E α} (hp : Fails n Q p) (he : Eats p) (hs : Suf p) : Fails n Q (many p) :=
  fun s hn b e r h => by
    obtain ⟨_, s', h1, h2⟩ := many_fail he hs h
    exact up _ _ _ h1 (hp s' (by have := h1.length_le; omega) _ _ _ h2)

theorem fails_separated1 (up : Up Q) {p : F E α} {sep : F E β} (hp : Fails n Q p) (hsep : Fails n Q sep)
    (he : Eats (do let _ ← sep; p)) (hs : Suf p) (hs' : Suf sep) : Fails n Q (separated1 p sep) :=
  fails_bind up hp hs fun _ => fun s hn b e r h => by
    rcases bind_fail h with h | ⟨_, _, _, h⟩
    · exact fails_many up (fails_bind up hsep hs' fun _ => hp) he (suf_bind hs' fun _ => hs) s hn _ _ _ h
    · cases h

theorem fails_commaList (up : Up Q) {p : F E α} (hp : Fails n Q p) (he : Eats p) (hs : Suf p) : Fails n Q (commaList p) :=
  fun s hn b e r h => by
    rcases commaList_fail he hs h with h | ⟨_, s', h1, _, h⟩
    · exact hp s hn _ _ _ h
    · exact up _ _ _ h1 (hp s' (by have := h1.length_le; omega) _ _ _ h)

theorem fails_surround (up : Up Q) (base : Base Q) {o c : Char} {p : F E α} (hp : Fails n Q p) (hs : Suf p) :
    Fails (n + 1) Q (surround o c p) :=
  fails_eats up (fails_chr base _) (suf_chr _) (eats_sim (sim_chr _) (Parse.eats_chr o)) fun _ => fails_cutErr <|
    fails_bind up hp hs fun _ => fun s hn b e r h => by
      rcases bind_fail h with h | ⟨_, _, _, h⟩
      · exact fails_ws up base (fails_chr base _) s hn _ _ _ h
      · cases h

end

theorem suf_ws_drop (s : Text) (f : Char → Bool) : s.dropWhile f <:+ s := List.dropWhile_suffix _

/-! ### What an error says -/

/-- In every text that ends with `s`, the diagnostic is in `s` and explains the text. -/
def Says (std : Std) (s : Text) (report : Text → Text × String) : Prop := ∀ w, ∃ u,
  w ++ s = u ++ (report (w ++ s)).1 ∧ (report (w ++ s)).1 <:+ s ∧ Explains std u (report (w ++ s)).1 (report (w ++ s)).2

theorem says_up {std : Std} {s s' : Text} {report : Text → Text × String} (h : s' <:+ s) (hs : Says std s' report) :
    Says std s report := fun w => by
  obtain ⟨x, rfl⟩ := h
  obtain ⟨u, h1, h2, h3⟩ := hs (w ++ x)
  rw [List.append_assoc] at h1 h2 h3
  exact ⟨u, h1, h2.trans (List.suffix_append _ _), h3⟩

theorem says_intro {std : Std} {x v : Text} {m : String} {report : Text → Text × String} (hr : ∀ t, report t = (v, m))
    (h : ∀ w, Explains std (w ++ x) v m) : Says std (x ++ v) report := fun w => by
  rw [hr]
  exact ⟨w ++ x, by rw [List.append_assoc], List.suffix_append _ _, h w⟩

/-- What cannot be read is broken at every place behind its start. -/
theorem broken_intro {α : Type} {p : P α} {start : Text → Text → Prop} {w x v : Text} (hs : start w (x ++ v))
    (h : Unreadable p (x ++ v)) : Broken p start (w ++ x) v := ⟨w, x, rfl, hs, h⟩

theorem after_append {set : List Char} {y : Text} (h : After set y) (w : Text) : After set (w ++ y) := by
  obtain ⟨u, c, b, h1, h2⟩ := h
  exact ⟨w ++ u, c, b, by rw [h1, List.append_assoc], h2⟩

theorem unreadable_sim {E α : Type} {p : F E α} {q : P α} (h : Sim p q) {s r : Text} {b : Bool} {e : E} (hp : p s = .fail b e r) :
    Unreadable q s := fun a m hq => by
  have := h s
  rw [hp, hq] at this
  cases b <;> cases this

theorem space_multi {c : Char} (h : isSpace c = true) : isMulti c = true := by
  simp only [isSpace, isMulti, Bool.or_eq_true] at h ⊢
  exact .inl (.inl h)

/-! ### Types -/

/-- The diagnostic of an error of a type. -/
def TypeErr (s : Text) (c : TypeCause) : Prop := ∃ v, v <:+ s ∧ ∀ text, typeReport text c = (v, "Failed to parse type definition")

theorem typeErr_up : Up TypeErr := fun _ _ _ h ⟨v, h1, h2⟩ => ⟨v, h1.trans h, h2⟩
theorem typeErr_base : Base TypeErr := fun s => ⟨s, List.suffix_refl _, fun _ => rfl⟩

theorem suf_parseType : Suf parseType := suf_sim sim_parseType Lsp.suf_parseType
theorem eats_parseType : Eats parseType := eats_sim sim_parseType Parse.eats_parseType

theorem segSep_soft {s r : Text} {b : Bool} {e : TypeCause}
    (h : (do let s ← mapErr TypeCause.segment parseSegment; lit "::"; pure s : F TypeCause String) s = .fail b e r) : b = false := by
  rcases bind_fail h with h | ⟨_, _, _, h⟩
  · obtain ⟨_, h, _⟩ := mapErr_fail h
    exact (nameOr_fail h).1
  · rcases bind_fail h with h | ⟨_, _, _, h⟩
    · exact (lit_fail h).1
    · cases h

theorem segSep_sim : Sim (do let s ← mapErr TypeCause.segment parseSegment; lit "::"; pure s : F TypeCause String) Parse.segSep :=
  sim_bind (sim_mapErr (sim_nameOr _ _ _)) fun _ => sim_bind (sim_lit _) fun _ => sim_pure _

theorem suf_segSep : Lsp.Suf Parse.segSep :=
  Lsp.suf_bind (Lsp.suf_name _ _) fun _ => Lsp.suf_bind (Lsp.suf_lit _) fun _ => Lsp.suf_pure _

theorem fails_typeBody {n : Nat} (ih : Fails n (fun s e => TypeErr s e.2) parseType) :
    Fails (n + 1) (fun s e => TypeErr s e.2) (typeBody parseType) := by
  have up := typeErr_up
  have base := typeErr_base
  have hi : Fails n TypeErr (inner parseType) := fails_mapErr ih fun s e h => by
    obtain ⟨v, h1, h2⟩ := h
    exact ⟨v, h1, fun t => by rw [typeReport]; exact h2 t⟩
  have hsuf : Suf (inner parseType) := suf_sim (sim_inner sim_parseType) Lsp.suf_parseType
  have hws : Suf (ws (inner parseType)) := suf_ws hsuf
  have heat : Eats (ws (inner parseType)) := eats_sim (sim_ws (sim_inner sim_parseType)) (Parse.eats_ws Parse.eats_parseType)
  have hl : Fails n TypeErr (commaList (ws (inner parseType))) := fails_commaList up (fails_ws up base hi) heat hws
  have hls : Suf (commaList (ws (inner parseType))) :=
    suf_sim (sim_commaList (sim_ws (sim_inner sim_parseType))) (Lsp.suf_commaList (Lsp.suf_ws Lsp.suf_parseType))
  have hsur : ∀ o c, Suf (surround o c (commaList (ws (inner parseType)))) := fun o c =>
    suf_sim (sim_surround (sim_commaList (sim_ws (sim_inner sim_parseType))))
      (Lsp.suf_surround (Lsp.suf_commaList (Lsp.suf_ws Lsp.suf_parseType)))
  have hsin : Fails (n + 1) TypeErr (parseSingle parseType) := fails_cutErr (fails_surround up base hi hsuf)
  have hpair : Suf (do let k ← inner parseType; sp (chr ','); let v ← sp (inner parseType); pure (k, v) : F TypeCause _) :=
    suf_bind hsuf fun _ => suf_bind (suf_sp (suf_chr _)) fun _ => suf_bind (suf_sp hsuf) fun _ => suf_pure _
  intro s hn b e r h
  obtain ⟨c, h0, rfl⟩ := mapErrAt_fail h
  show TypeErr s c
  refine fails_alt ?_ (fails_alt ?_ (fails_alt ?_ (fails_alt ?_ ?_))) s hn b c r h0
  · refine fails_alt ?_ (fails_alt ?_ ?_)
    · refine fails_bind up (fails_takeWhile base _ _) (suf_takeWhile _ _) fun w => ?_
      cases Parse.basicOf (String.ofList w) with
      | some p => exact fails_pure _
      | none => exact fails_fail base
    · exact fails_bind up (fails_lit base _) (suf_sim (sim_lit _) (Lsp.suf_lit _)) fun _ => fails_pure _
    · exact fails_bind up (fails_lit base _) (suf_sim (sim_lit _) (Lsp.suf_lit _)) fun _ => fails_pure _
  · have hs1 : Suf (parseSingle parseType) := suf_sim (sim_parseSingle sim_parseType)
      (Lsp.suf_cutErr (Lsp.suf_surround Lsp.suf_parseType))
    have one : ∀ f : DataType → DataType, Fails (n + 1) TypeErr (do let t ← parseSingle parseType; pure (f t)) := fun f =>
      fails_bind up hsin hs1 fun _ => fails_pure _
    refine fails_bind up (fails_takeWhile base _ _) (suf_takeWhile _ _) fun w => ?_
    refine fails_ite (one _) <| fails_ite ?_ <| fails_ite (one _) <| fails_ite (one _) <| fails_ite (one _) (fails_fail base)
    refine fails_bind up (fails_cutErr (fails_surround up base ?_ hpair)) ?_ fun _ => fails_pure _
    · exact fails_bind up hi hsuf fun _ => fails_bind up (fails_sp up base (fails_chr base _)) (suf_sp (suf_chr _)) fun _ =>
        fails_bind up (fails_sp up base hi) (suf_sp hsuf) fun _ => fails_pure _
    · exact suf_sim (sim_parsePair sim_parseType) (Lsp.suf_cutErr (Lsp.suf_surround (Lsp.suf_bind Lsp.suf_parseType fun _ =>
        Lsp.suf_bind (Lsp.suf_sp (Lsp.suf_chr _)) fun _ => Lsp.suf_bind (Lsp.suf_sp Lsp.suf_parseType) fun _ => Lsp.suf_pure _)))
  · exact fails_bind up (fails_surround up base hl hls) (hsur _ _) fun _ => fails_pure _
  · have ha : Suf (do let t ← ws (inner parseType); ws (chr ';'); let n ← ws (decUint (2 ^ 32)); pure (t, n) : F TypeCause _) :=
      suf_bind hws fun _ => suf_bind (suf_ws (suf_chr _)) fun _ =>
        suf_bind (suf_ws (suf_sim (sim_decUint _) (Lsp.suf_decUint _))) fun _ => suf_pure _
    refine fails_bind up (fails_surround up base ?_ ha) ?_ fun _ => fails_pure _
    · exact fails_bind up (fails_ws up base hi) hws fun _ => fails_bind up (fails_ws up base (fails_chr base _)) (suf_ws (suf_chr _))
        fun _ => fails_bind up (fails_ws up base (fails_decUint base _)) (suf_ws (suf_sim (sim_decUint _) (Lsp.suf_decUint _)))
          fun _ => fails_pure _
    · exact suf_sim (sim_surround (sim_bind (sim_ws (sim_inner sim_parseType)) fun _ => sim_bind (sim_ws (sim_chr _)) fun _ =>
        sim_bind (sim_ws (sim_decUint _)) fun _ => sim_pure _)) (Lsp.suf_surround (Lsp.suf_bind (Lsp.suf_ws Lsp.suf_parseType) fun _ =>
          Lsp.suf_bind (Lsp.suf_ws (Lsp.suf_chr _)) fun _ => Lsp.suf_bind (Lsp.suf_ws (Lsp.suf_decUint _)) fun _ => Lsp.suf_pure _))
  · have hpath : Fails (n + 1) TypeErr (opt (many1 (do let s ← mapErr TypeCause.segment parseSegment; lit "::"; pure s))) :=
      fun s hn b e r h => by
        obtain ⟨_, h0⟩ := opt_fail h
        rcases bind_fail h0 with h | ⟨_, _, _, h⟩
        · cases segSep_soft h
        · rcases bind_fail h with h | ⟨_, _, _, h⟩
          · obtain ⟨_, _, _, h⟩ := many_fail (eats_sim segSep_sim Parse.eats_segSep) (suf_sim segSep_sim suf_segSep) h
            cases segSep_soft h
          · cases h
    refine fails_bind up hpath (suf_sim (sim_opt (sim_many1 segSep_sim)) (Lsp.suf_opt (Lsp.suf_many1 suf_segSep))) fun _ =>
      fails_bind up (fails_name base _ _) (suf_sim (sim_name _ _) (Lsp.suf_name _ _)) fun _ =>
      fails_bind up (fails_opt (fails_surround up base hl hls)) (suf_sim (sim_opt (sim_surround (sim_commaList
        (sim_ws (sim_inner sim_parseType))))) (Lsp.suf_opt (Lsp.suf_surround (Lsp.suf_commaList (Lsp.suf_ws Lsp.suf_parseType)))))
        fun g => ?_
    cases g with
    | none => exact fails_pure _
    | some g => exact fails_pure _

theorem fails_parseType : ∀ n, Fails n (fun s e => TypeErr s e.2) parseType
  | 0 => fun _ h => by omega
  | n + 1 => fun s hs b e r h => fails_typeBody (fails_parseType n) s hs b e r (parseType_eq s ▸ h)

/-- Where no type can be read, the diagnostic says so. -/
theorem parseType_says (std : Std) {y s r : Text} {b : Bool} {e : At × TypeCause} (hy : After [':', '=', '(', ','] y)
    (h : parseType s = .fail b e r) : Says std (y ++ s) (fun text => typeReport text e.2) := by
  obtain ⟨v, ⟨x, rfl⟩, h2⟩ := fails_parseType _ s (Nat.lt_succ_self _) _ _ _ h
  rw [← List.append_assoc]
  refine says_intro h2 fun w => ?_
  rw [← List.append_assoc]
  exact .type (broken_intro (after_append hy w) (unreadable_sim sim_parseType h))

/-! ### Literals -/

/-- An integer that is out of range, at its start, or a sign without digits, at its end. -/
def IntErr (x v : Text) : Prop :=
  (∃ sign digits rest, v = sign ++ digits ++ rest ∧ Sign sign ∧ digits ≠ [] ∧ (∀ c ∈ digits, isDigit c = true) ∧
    NotAt isDigit rest ∧ ¬ (-2 ^ 127 ≤ number sign digits ∧ number sign digits < 2 ^ 127)) ∨
  ∃ x' sign, x = x' ++ sign ∧ sign ≠ [] ∧ Sign sign ∧ NotAt isDigit v

/-- The errors of a literal. -/
def LitErr (s : Text) (c : LiteralCause) : Prop :=
  ∃ x v, s = x ++ v ∧ (c = .parser v ∨ (c = .invalidInt v ∧ IntErr x v))

theorem litErr_up : Up LitErr := fun _ _ _ h ⟨x, v, h1, h2⟩ => by
  obtain ⟨y, rfl⟩ := h
  refine ⟨y ++ x, v, by rw [h1, List.append_assoc], ?_⟩
  rcases h2 with h2 | ⟨h2, h3 | ⟨x', sign, h3, h4⟩⟩
  · exact .inl h2
  · exact .inr ⟨h2, .inl h3⟩
  · exact .inr ⟨h2, .inr ⟨y ++ x', sign, by rw [h3, List.append_assoc], h4⟩⟩

theorem litErr_base : Base LitErr := fun s => ⟨[], s, rfl, .inl rfl⟩

theorem sign_eq {E : Type} [FromInput E] {s m : Text} {o : Option Char} (h : (optSign : F E _) s = .ok o m) :
    ∃ sign, s = sign ++ m ∧ Sign sign ∧ o = sign.head? := by
  rcases Parse.opt_eq_ok (sim_ok sim_optSign h) with ⟨c, rfl, h'⟩ | ⟨rfl, rfl, _⟩
  · obtain ⟨rfl, hc⟩ := Parse.oneOf_eq_ok h'
    simp only [Bool.or_eq_true, beq_iff_eq] at hc
    refine ⟨[c], rfl, ?_, rfl⟩
    rcases hc with rfl | rfl
    · exact .inr (.inl rfl)
    · exact .inr (.inr rfl)
  · exact ⟨[], rfl, .inl rfl, rfl⟩

theorem optSign_ok {E : Type} [FromInput E] {s r : Text} {b : Bool} {e : E} (h : (optSign : F E _) s = .fail b e r) : False := by
  have := (oneOf_fail (opt_fail h).2).1
  cases this

theorem notAt_of_takeWhile {f : Char → Bool} {s : Text} (h : (s.takeWhile f).length < 1) : NotAt f s := fun c hc => by
  cases s with
  | nil => cases hc
  | cons d s =>
    cases hc
    cases hd : f c with
    | false => rfl
    | true => rw [List.takeWhile_cons, hd] at h; simp at h

theorem notAt_dropWhile {f : Char → Bool} (s : Text) : NotAt f (s.dropWhile f) := fun c hc => by
  have := List.head?_dropWhile_not f s
  rw [hc] at this
  simpa using this

theorem intVal_number {sign ds : Text} (h : Sign sign) : Parse.intVal sign.head? ds = number sign ds := by
  rcases h with rfl | rfl | rfl <;> simp [Parse.intVal, number, Parse.digitsVal]

theorem parseInt_err {s r : Text} {c : Char} {b : Bool} {e : LiteralCause} (hc : s.head? = some c)
    (hc' : c = '+' ∨ c = '-' ∨ isDigit c = true) (h : parseInt s = .fail b e r) : LitErr s e := by
  obtain ⟨_, h0, rfl⟩ := mapErrAt_fail h
  rcases bind_fail h0 with h | ⟨o, m, h1, h0⟩
  · exact absurd h fun h => optSign_ok h
  · obtain ⟨sign, rfl, h2, h3⟩ := sign_eq h1
    rcases bind_fail h0 with h | ⟨ds, m', h4, h0⟩
    · obtain ⟨_, _, rfl, h5⟩ := takeWhile_fail h
      by_cases hs : sign = []
      · subst hs
        exfalso
        rw [List.nil_append] at hc h1
        have hd := notAt_of_takeWhile h5 _ hc
        rcases hc' with rfl | rfl | h6
        · cases r with
          | nil => cases hc
          | cons d r => cases hc; cases h1
        · cases r with
          | nil => cases hc
          | cons d r => cases hc; cases h1
        · rw [h6] at hd; cases hd
      · exact ⟨sign, r, rfl, .inr ⟨rfl, .inr ⟨[], sign, rfl, hs, h2, notAt_of_takeWhile h5⟩⟩⟩
    · have h6 : ds = m.takeWhile isDigit ∧ m' = m.dropWhile isDigit ∧ 1 ≤ ds.length := by
        rw [takeWhile] at h4
        by_cases hl : (m.takeWhile isDigit).length < 1
        · rw [if_pos hl] at h4; cases h4
        · rw [if_neg hl] at h4; cases h4; exact ⟨rfl, rfl, by omega⟩
      obtain ⟨h5, h6, h7⟩ := h6
      rcases ite_fail h0 with ⟨_, h0⟩ | ⟨h8, h0⟩
      · cases h0
      · cases h0
        refine ⟨[], sign ++ m, rfl, .inr ⟨rfl, .inl ⟨sign, ds, m', ?_, h2, ?_, ?_, ?_, ?_⟩⟩⟩
        · rw [List.append_assoc, h5, h6, List.takeWhile_append_dropWhile]
        · intro hd; rw [hd] at h7; cases h7
        · intro c hc; rw [h5] at hc; exact (Parse.takeWhile_eq_ok (sim_ok (sim_takeWhile _ _) h4)).2.1 c (h5 ▸ hc)
        · rw [h6]; exact notAt_dropWhile m
        · rw [← intVal_number h2, ← h3]; exact h8

theorem fails_digits {n : Nat} : Fails n LitErr (takeWhile 1 isDigit : F LiteralCause Text) := fails_takeWhile litErr_base _ _

theorem suf_optSign {E : Type} [FromInput E] : Suf (optSign : F E _) := suf_sim sim_optSign Lsp.suf_optSign

theorem fails_optSign {n : Nat} : Fails n LitErr (optSign : F LiteralCause _) := fun _ _ _ _ _ h => absurd h fun h => optSign_ok h

theorem fails_taken {E α : Type} {n : Nat} {Q : Text → E → Prop} {p : F E α} (hp : Fails n Q p) : Fails n Q (taken p) :=
  fun s hn b e r h => by
    rw [taken] at h
    cases h1 : p s with
    | ok a m => rw [h1] at h; cases h
    | fail b e m => rw [h1] at h; cases h; exact hp s hn _ _ _ h1

theorem fails_parseFloat (std : Std) {n : Nat} : Fails n LitErr (parseFloat std) := by
  have up := litErr_up
  have base := litErr_base
  have hexp : Suf (opt (do
      let _ ← oneOf fun c => c == 'e' || c == 'E'
      let _ ← optSign
      cutErr (takeWhile 1 isDigit)) : F LiteralCause _) :=
    suf_sim (sim_opt (sim_bind (sim_oneOf _) fun _ => sim_bind sim_optSign fun _ => sim_cutErr (sim_takeWhile _ _)))
      (Lsp.suf_opt (Lsp.suf_bind (Lsp.suf_oneOf _) fun _ => Lsp.suf_bind Lsp.suf_optSign fun _ => Lsp.suf_cutErr (Lsp.suf_takeWhile _ _)))
  refine fails_bind up (fails_taken ?_) ?_ fun _ => fails_pure _
  · exact fails_bind up fails_optSign suf_optSign fun _ => fails_bind up fails_digits (suf_takeWhile _ _) fun _ =>
      fails_bind up (fails_chr base _) (suf_chr _) fun _ => fails_bind up fails_digits (suf_takeWhile _ _) fun _ =>
      fails_bind up (fails_opt (fails_bind up (fails_oneOf base _) (suf_sim (sim_oneOf _) (Lsp.suf_oneOf _)) fun _ =>
        fails_bind up fails_optSign suf_optSign fun _ => fails_cutErr fails_digits)) hexp fun _ => fails_pure _
  · exact suf_sim (sim_taken (sim_bind sim_optSign fun _ => sim_bind (sim_takeWhile _ _) fun _ => sim_bind (sim_chr _) fun _ =>
      sim_bind (sim_takeWhile _ _) fun _ => sim_bind (sim_opt (sim_bind (sim_oneOf _) fun _ => sim_bind sim_optSign fun _ =>
        sim_cutErr (sim_takeWhile _ _))) fun _ => sim_pure _)) Lsp.suf_floatText

theorem fails_parseUnicode {n : Nat} : Fails n LitErr parseUnicode := fun s hn b e r h => by
  have up := litErr_up
  have base := litErr_base
  have hs : Suf (do chr '{'; let ds ← takeWhileMax 1 6 Parse.isHex; chr '}'; pure ds : F LiteralCause Text) :=
    suf_sim (sim_bind (sim_chr _) fun _ => sim_bind (sim_takeWhileMax _ _ _) fun _ => sim_bind (sim_chr _) fun _ => sim_pure _)
      (Lsp.suf_bind (Lsp.suf_chr _) fun _ => Lsp.suf_bind (Lsp.suf_takeWhileMax _ _ _) fun _ => Lsp.suf_bind (Lsp.suf_chr _) fun _ =>
        Lsp.suf_pure _)
  rcases bind_fail h with h | ⟨_, m, h1, h0⟩
  · exact fails_chr base _ s hn _ _ _ h
  · have hm := suf_chr _ _ _ _ h1
    rcases bind_fail h0 with h | ⟨ds, m', h2, h0⟩
    · refine up _ _ _ hm (fails_cutErr (n := n) (fails_bind up (fails_chr base _) (suf_chr _) fun _ =>
        fails_bind up (fails_takeWhileMax base _ _ _) (suf_sim (sim_takeWhileMax _ _ _) (Lsp.suf_takeWhileMax _ _ _)) fun _ =>
        fails_bind up (fails_chr base _) (suf_chr _) fun _ => fails_pure _) m (by have := hm.length_le; omega) _ _ _ h)
    · cases hc : Parse.charOf (Parse.hexVal ds) with
      | some c => simp only [hc] at h0; cases h0
      | none => simp only [hc] at h0; cases h0; exact base s

theorem fails_escapedChar {n : Nat} : Fails n LitErr escapedChar := by
  have up := litErr_up
  have base := litErr_base
  have one : ∀ c d : Char, Fails n LitErr (do chr c; pure d : F LiteralCause Char) := fun c d =>
    fails_bind up (fails_chr base _) (suf_chr _) fun _ => fails_pure _
  refine fails_bind up (fails_peekAny base) (suf_sim sim_peekAny Lsp.suf_peekAny) fun c => ?_
  iterate 9 refine fails_ite (one _ _) ?_
  exact fails_ite fails_parseUnicode (fails_fail base)

theorem fails_parseFragment {n : Nat} : Fails n LitErr parseFragment := by
  have up := litErr_up
  have base := litErr_base
  exact fails_alt (fails_takeWhile base _ _) (fails_alt
    (fails_bind up (fails_chr base _) (suf_chr _) fun _ => fails_bind up fails_escapedChar
      (suf_sim sim_escapedChar Lsp.suf_escapedChar) fun _ => fails_pure _)
    (fails_bind up (fails_chr base _) (suf_chr _) fun _ => fails_bind up (fails_takeWhile base _ _) (suf_takeWhile _ _) fun _ => fails_pure _))

theorem fails_parseString {n : Nat} : Fails n LitErr parseString := by
  have up := litErr_up
  have base := litErr_base
  have hs : Suf (do let frs ← many parseFragment; chr '"'; pure frs : F LiteralCause _) :=
    suf_bind (suf_sim (sim_many sim_parseFragment) (Lsp.suf_many Lsp.suf_parseFragment)) fun _ => suf_bind (suf_chr _) fun _ => suf_pure _
  refine fails_bind up (fails_chr base _) (suf_chr _) fun _ => fails_bind up (fails_cutErr ?_) ?_ fun _ => fails_pure _
  · exact fails_bind up (fails_many up fails_parseFragment (eats_sim sim_parseFragment Parse.eats_parseFragment)
      (suf_sim sim_parseFragment Lsp.suf_parseFragment)) (suf_sim (sim_many sim_parseFragment) (Lsp.suf_many Lsp.suf_parseFragment))
      fun _ => fails_bind up (fails_chr base _) (suf_chr _) fun _ => fails_pure _
  · exact suf_sim (sim_cutErr (sim_bind (sim_many sim_parseFragment) fun _ => sim_bind (sim_chr _) fun _ => sim_pure _))
      (Lsp.suf_cutErr (Lsp.suf_bind (Lsp.suf_many Lsp.suf_parseFragment) fun _ => Lsp.suf_bind (Lsp.suf_chr _) fun _ => Lsp.suf_pure _))

theorem fails_parseBytes {n : Nat} : Fails n LitErr parseBytes := by
  have up := litErr_up
  have base := litErr_base
  have hd : Suf (ws (decUint 256) : F LiteralCause Nat) := suf_ws (suf_sim (sim_decUint _) (Lsp.suf_decUint _))
  have hf : Fails n LitErr (ws (decUint 256)) := fails_ws up base (fails_decUint base _)
  have hc : Fails n LitErr (ws (chr ',')) := fails_ws up base (fails_chr base _)
  have hcl : Fails n LitErr (ws (chr ']')) := fails_ws up base (fails_chr base _)
  have he : Eats (do let _ ← ws (chr ','); ws (decUint 256) : F LiteralCause Nat) :=
    eats_sim (sim_bind (sim_ws (sim_chr _)) fun _ => sim_ws (sim_decUint _)) (Parse.eats_bind_right (Parse.mono_ws (Parse.mono_chr _))
      fun _ => Parse.eats_ws (Parse.eats_decUint _))
  refine fails_bind up (fails_chr base _) (suf_chr _) fun _ => fails_bind up (fails_cutErr ?_) ?_ fun _ => fails_pure _
  · exact fails_bind up (fails_separated1 up hf hc he hd (suf_ws (suf_chr _)))
      (suf_sim (sim_separated1 (sim_ws (sim_decUint _)) (sim_ws (sim_chr _)))
        (Lsp.suf_separated1 (Lsp.suf_ws (Lsp.suf_decUint _)) (Lsp.suf_ws (Lsp.suf_chr _)))) fun _ =>
      fails_bind up (fails_opt hc) (suf_sim (sim_opt (sim_ws (sim_chr _))) (Lsp.suf_opt (Lsp.suf_ws (Lsp.suf_chr _)))) fun _ =>
      fails_bind up hcl (suf_ws (suf_chr _)) fun _ => fails_pure _
  · exact suf_sim (sim_cutErr (sim_bind (sim_separated1 (sim_ws (sim_decUint _)) (sim_ws (sim_chr _))) fun _ =>
        sim_bind (sim_opt (sim_ws (sim_chr _))) fun _ => sim_bind (sim_ws (sim_chr _)) fun _ => sim_pure _))
      (Lsp.suf_cutErr (Lsp.suf_bind (Lsp.suf_separated1 (Lsp.suf_ws (Lsp.suf_decUint _)) (Lsp.suf_ws (Lsp.suf_chr _))) fun _ =>
        Lsp.suf_bind (Lsp.suf_opt (Lsp.suf_ws (Lsp.suf_chr _))) fun _ => Lsp.suf_bind (Lsp.suf_ws (Lsp.suf_chr _)) fun _ => Lsp.suf_pure _))

theorem parseLiteral_err (std : Std) {s r : Text} {b : Bool} {e : At × LiteralCause} (h : parseLiteral std s = .fail b e r) :
    LitErr s e.2 := by
  have up := litErr_up
  have base := litErr_base
  obtain ⟨c, h0, rfl⟩ := mapErrAt_fail h
  show LitErr s c
  have hn : s.length < s.length + 1 := by omega
  have one : ∀ (w : String) (l : Literal), Fails (s.length + 1) LitErr (do lit w; pure l : F LiteralCause Literal) := fun w l =>
    fails_bind up (fails_lit base _) (suf_sim (sim_lit _) (Lsp.suf_lit _)) fun _ => fails_pure _
  rcases bind_fail h0 with h | ⟨d, m, h1, h2⟩
  · exact fails_peekAny base s hn _ _ _ h
  · clear h0
    have h0 := h2
    clear h2
    have hp : s.head? = some d ∧ m = s := by
      cases s with
      | nil => cases h1
      | cons x s => cases h1; exact ⟨rfl, rfl⟩
    obtain ⟨hd, rfl⟩ := hp
    rcases ite_fail h0 with ⟨_, h0⟩ | ⟨_, h0⟩
    · exact one _ _ m hn _ _ _ h0
    rcases ite_fail h0 with ⟨_, h0⟩ | ⟨_, h0⟩
    · exact one _ _ m hn _ _ _ h0
    rcases ite_fail h0 with ⟨hc, h0⟩ | ⟨_, h0⟩
    · obtain ⟨_, _, h0⟩ := cutErr_fail h0
      rcases alt_fail h0 with ⟨_, h0⟩ | h0
      · exact fails_parseFloat std m hn _ _ _ h0
      · exact parseInt_err hd hc h0
    rcases ite_fail h0 with ⟨_, h0⟩ | ⟨_, h0⟩
    · exact fails_parseString m hn _ _ _ h0
    rcases ite_fail h0 with ⟨_, h0⟩ | ⟨_, h0⟩
    · exact fails_parseBytes m hn _ _ _ h0
    · exact fails_fail base m hn _ _ _ h0

/-- Where no literal can be read, the diagnostic says so. -/
theorem parseLiteral_says (std : Std) {y s r : Text} {b : Bool} {e : At × LiteralCause} (hy : After ['='] y)
    (h : parseLiteral std s = .fail b e r) : Says std (y ++ s) (fun _ => literalReport e.2) := by
  obtain ⟨x, v, rfl, h1 | ⟨h1, h2⟩⟩ := parseLiteral_err std h
  · rw [h1, ← List.append_assoc]
    refine says_intro (fun _ => rfl) fun w => ?_
    rw [← List.append_assoc]
    exact .literal (broken_intro (after_append hy w) (unreadable_sim (sim_parseLiteral std) h))
  · rw [h1]
    refine says_up (List.suffix_append y _) ?_
    refine says_intro (fun _ => rfl) fun w => ?_
    rcases h2 with ⟨sign, digits, rest, h2, h3, h4, h5, h6, h7⟩ | ⟨x', sign, rfl, h3, h4, h5⟩
    · exact .integerRange h2 h3 h4 h5 h6 h7
    · rw [← List.append_assoc]; exact .integerSign h3 h4 h5

/-! ### Attributes -/

/-- The errors inside an attribute. -/
def AttrErr (std : Std) (s : Text) (c : AttributeCause) : Prop :=
  (∃ v, v <:+ s ∧ c = .parser v) ∨ ∃ a l, c = .literal a l ∧ Says std s (fun _ => literalReport l)

theorem attrErr_up (std : Std) : Up (AttrErr std) := fun _ _ _ h h1 => by
  rcases h1 with ⟨v, h1, h2⟩ | ⟨a, l, h1, h2⟩
  · exact .inl ⟨v, h1.trans h, h2⟩
  · exact .inr ⟨a, l, h1, says_up h h2⟩

theorem attrErr_base (std : Std) : Base (AttrErr std) := fun s => .inl ⟨s, List.suffix_refl _, rfl⟩

theorem suf_parseAttr' (std : Std) : Lsp.Suf (Parse.parseAttr std) := fun h => Lsp.suf_attrDepth std _ h
theorem suf_parseAttr (std : Std) : Suf (parseAttr std) := suf_sim (sim_parseAttr std) (suf_parseAttr' std)

theorem fails_attrList (std : Std) {n : Nat} {close : Char} (ih : Fails n (AttrErr std) (parseAttr std)) :
    Fails n (AttrErr std) (attrList close (parseAttr std)) := by
  have up := attrErr_up std
  have base := attrErr_base std
  have he : Eats (do let _ ← ws (chr ','); ws (parseAttr std) : F AttributeCause Attribute) :=
    eats_sim (sim_bind (sim_ws (sim_chr _)) fun _ => sim_ws (sim_parseAttr std)) (Parse.eats_bind_right (Parse.mono_ws (Parse.mono_chr _))
      fun _ => Parse.eats_ws (Parse.eats_parseAttr std))
  exact fails_bind up (fails_separated1 up (fails_ws up base ih) (fails_ws up base (fails_chr base _)) he
      (suf_ws (suf_parseAttr std)) (suf_ws (suf_chr _)))
    (suf_sim (sim_separated1 (sim_ws (sim_parseAttr std)) (sim_ws (sim_chr _)))
      (Lsp.suf_separated1 (Lsp.suf_ws (suf_parseAttr' std)) (Lsp.suf_ws (Lsp.suf_chr _)))) fun _ =>
    fails_bind up (fails_opt (fails_chr base _)) (suf_sim (sim_opt (sim_chr _)) (Lsp.suf_opt (Lsp.suf_chr _))) fun _ =>
    fails_bind up (fails_ws up base (fails_chr base _)) (suf_ws (suf_chr _)) fun _ => fails_pure _

theorem fails_attrBody (std : Std) {n : Nat} (ih : Fails n (AttrErr std) (parseAttr std)) :
    Fails (n + 1) (AttrErr std) (attrBody std (parseAttr std)) := by
  have up := attrErr_up std
  have base := attrErr_base std
  refine fails_eats up (fails_name base _ _) (suf_sim (sim_name _ _) (Lsp.suf_name _ _)) (eats_sim (sim_name _ _) (Parse.eats_name _ _))
    fun name => fails_alt ?_ (fails_alt ?_ (fails_pure _))
  · exact fails_bind up (fails_chr base _) (suf_chr _) fun _ => fails_bind up (fails_cutErr (fails_attrList std ih))
      (suf_sim (sim_cutErr (sim_attrList (sim_parseAttr std))) (Lsp.suf_cutErr (Lsp.suf_attrList (suf_parseAttr' std)))) fun _ => fails_pure _
  · refine fails_bind up (fails_takeWhile base _ _) (suf_takeWhile _ _) fun _ => ?_
    intro s hn b e r h
    rcases bind_fail h with h | ⟨_, m, h1, h⟩
    · exact fails_chr base _ s hn _ _ _ h
    rcases bind_fail h with h | ⟨w, m', h2, h⟩
    · have := (takeWhile_fail h).2.2.2; omega
    rcases bind_fail h with h | ⟨_, _, _, h⟩
    · obtain ⟨e', h3, h4⟩ := mapErr_fail h
      have e1 := Parse.chr_eq_ok (sim_ok (sim_chr _) h1)
      obtain ⟨e2, e3, _⟩ := Parse.takeWhile_eq_ok (sim_ok (sim_takeWhile _ _) h2)
      have := parseLiteral_says std (y := '=' :: w) ⟨[], '=', w, rfl, List.mem_cons_self .., fun d hd => space_multi (e3 d hd)⟩ h3
      rw [List.cons_append, ← e2, ← e1] at this
      exact .inr ⟨_, _, h4, this⟩
    · cases h

theorem fails_parseAttr (std : Std) : ∀ n, Fails n (AttrErr std) (parseAttr std)
  | 0 => fun _ h => by omega
  | n + 1 => fun s hs b e r h => fails_attrBody std (fails_parseAttr std n) s hs b e r (parseAttr_eq std s ▸ h)

/-- A final error of an attribute: there is an attribute, which cannot be read. -/
theorem parseAttribute_says (std : Std) {s r : Text} {e : AttributeCause} (h : parseAttribute std s = .fail true e r) :
    Says std s (fun _ => attributeReport e) := by
  rcases bind_fail h with h0 | ⟨_, m, h1, h0⟩
  · cases (lit_fail h0).1
  have e1 := Parse.lit_eq_ok (sim_ok (sim_lit _) h1)
  rcases bind_fail h0 with h0 | ⟨_, m', h2, h0⟩
  · cases (chr_fail h0).1
  have e2 := Parse.chr_eq_ok (sim_ok (sim_chr _) h2)
  obtain ⟨_, _, h0⟩ := cutErr_fail h0
  have hp : "#[".toList <+: s := ⟨m', by rw [e1, e2]; rfl⟩
  have hs : m' <:+ s := by rw [e1, e2]; exact ⟨"#[".toList, rfl⟩
  have hu := unreadable_sim (sim_parseAttribute std) h
  rcases attrErr_up std _ _ _ hs (fails_attrList std (fails_parseAttr std _) m' (Nat.lt_succ_self _) _ _ _ h0) with
    ⟨v, ⟨x, rfl⟩, rfl⟩ | ⟨a, l, rfl, h3⟩
  · exact says_intro (fun _ => rfl) fun w => .attribute (broken_intro hp hu)
  · exact h3

theorem eats_attrLine (std : Std) : Eats (do let as ← parseAttribute std; chr '\n'; pure as : F AttributeCause _) :=
  eats_sim (sim_bind (sim_parseAttribute std) fun _ => sim_bind (sim_chr _) fun _ => sim_pure _) (Parse.eats_attrLine std)

theorem suf_parseAttribute (std : Std) : Suf (parseAttribute std) :=
  suf_sim (sim_parseAttribute std) (Lsp.suf_bind (Lsp.suf_lit _) fun _ => Lsp.suf_bind (Lsp.suf_chr _) fun _ =>
    Lsp.suf_cutErr (Lsp.suf_attrList (suf_parseAttr' std)))

theorem parseAttributes_says (std : Std) {s r : Text} {b : Bool} {e : At × AttributeCause} (h : parseAttributes std s = .fail b e r) :
    Says std s (fun _ => attributeReport e.2) := by
  obtain ⟨c, h0, rfl⟩ := mapErrAt_fail h
  rcases bind_fail h0 with h0 | ⟨_, _, _, h0⟩
  · obtain ⟨_, s', h1, h2⟩ := many_fail (eats_attrLine std) (suf_bind (suf_parseAttribute std) fun _ =>
      suf_bind (suf_chr _) fun _ => suf_pure _) h0
    rcases bind_fail h2 with h2 | ⟨_, _, _, h2⟩
    · exact says_up h1 (parseAttribute_says std h2)
    · rcases bind_fail h2 with h2 | ⟨_, _, _, h2⟩
      · cases (chr_fail h2).1
      · cases h2
  · cases h0

end Mabo.Failing
