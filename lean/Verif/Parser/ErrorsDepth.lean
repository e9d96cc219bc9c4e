import Verif.Parser.ErrorsLemmas
/-! The recursion of the parsers with errors unfolds: the depth that closes it is never exhausted. -/
namespace Mabo.Failing
open Mabo.Parse (Text Res P Std isSpace isMulti isLower isUpper isDigit isAlnum)
open Mabo.Ast

/-- Never gives back input. -/
def Mono {E α : Type} (p : F E α) : Prop := ∀ s a r, p s = .ok a r → r.length ≤ s.length

/-- A success consumes something. -/
def Eats {E α : Type} (p : F E α) : Prop := ∀ s a r, p s = .ok a r → r.length < s.length

/-- Equal on inputs shorter than `n`. -/
def Agree {E α : Type} (n : Nat) (p q : F E α) : Prop := ∀ s : Text, s.length < n → p s = q s

section
variable {E E' α β : Type}

theorem sim_ok {p : F E α} {q : P α} (h : Sim p q) {s r : Text} {a : α} (hp : p s = .ok a r) : q s = .ok a r := by
  rw [← h s, hp]; rfl

theorem mono_sim {p : F E α} {q : P α} (h : Sim p q) (hq : Parse.Mono q) : Mono p := fun _ _ _ hp => hq _ _ _ (sim_ok h hp)
theorem eats_sim {p : F E α} {q : P α} (h : Sim p q) (hq : Parse.Eats q) : Eats p := fun _ _ _ hp => hq _ _ _ (sim_ok h hp)

theorem agree_refl (n : Nat) (p : F E α) : Agree n p p := fun _ _ => rfl

theorem agree_le {n m : Nat} {p q : F E α} (h : Agree n p q) (hm : m ≤ n) : Agree m p q := fun s hs => h s (by omega)

theorem bind_eq_ok {p : F E α} {f : α → F E β} {s r : Text} {b : β} (h : (p >>= f) s = .ok b r) :
    ∃ a m, p s = .ok a m ∧ f a m = .ok b r := by
  rw [bind_run] at h
  cases hp : p s with
  | ok a m => rw [hp] at h; exact ⟨a, m, rfl, h⟩
  | fail b e m => rw [hp] at h; cases h

theorem mono_bind {p : F E α} {f : α → F E β} (hp : Mono p) (hf : ∀ a, Mono (f a)) : Mono (p >>= f) := fun s b r h => by
  obtain ⟨a, m, h1, h2⟩ := bind_eq_ok h
  have := hp _ _ _ h1
  have := hf a _ _ _ h2
  omega

theorem mono_pure (a : α) : Mono (pure a : F E α) := mono_sim (sim_pure a) (Parse.mono_pure a)

theorem mono_mapErr {f : E → E'} {p : F E α} (h : Mono p) : Mono (mapErr f p) := fun s a r hp => by
  rw [mapErr] at hp
  cases h1 : p s with
  | ok b m => rw [h1] at hp; cases hp; exact h _ _ _ h1
  | fail b e m => rw [h1] at hp; cases hp

theorem agree_bind {n : Nat} {p q : F E α} {f g : α → F E β} (hp : Agree n p q) (hm : Mono p)
    (hf : ∀ a, Agree n (f a) (g a)) : Agree n (p >>= f) (q >>= g) := fun s hs => by
  rw [bind_run, bind_run, ← hp s hs]
  cases h : p s with
  | ok a r => exact hf a r (by have := hm _ _ _ h; omega)
  | fail b e r => rfl

theorem agree_eats {n : Nat} {p : F E α} {f g : α → F E β} (hp : Eats p) (hf : ∀ a, Agree n (f a) (g a)) :
    Agree (n + 1) (p >>= f) (p >>= g) := fun s hs => by
  rw [bind_run, bind_run]
  cases h : p s with
  | ok a r => exact hf a r (by have := hp _ _ _ h; omega)
  | fail b e r => rfl

theorem agree_mapErr {n : Nat} {f : E → E'} {p q : F E α} (h : Agree n p q) : Agree n (mapErr f p) (mapErr f q) := fun s hs => by
  rw [mapErr, mapErr, h s hs]
theorem agree_mapErrAt {n : Nat} {f : Text → Text → E → E'} {p q : F E α} (h : Agree n p q) :
    Agree n (mapErrAt f p) (mapErrAt f q) := fun s hs => by rw [mapErrAt, mapErrAt, h s hs]
theorem agree_cutErr {n : Nat} {p q : F E α} (h : Agree n p q) : Agree n (cutErr p) (cutErr q) := fun s hs => by
  rw [cutErr, cutErr, h s hs]
theorem agree_opt {n : Nat} {p q : F E α} (h : Agree n p q) : Agree n (opt p) (opt q) := fun s hs => by
  rw [opt, opt, h s hs]
theorem agree_alt {n : Nat} {p q p' q' : F E α} (h : Agree n p q) (h' : Agree n p' q') : Agree n (alt p p') (alt q q') :=
  fun s hs => by rw [alt, alt, h s hs, h' s hs]

theorem agree_ite {n : Nat} {c : Prop} [Decidable c] {p p' q q' : F E α} (h : Agree n p q) (h' : Agree n p' q') :
    Agree n (if c then p else p') (if c then q else q') := by
  by_cases hc : c <;> simp only [hc, if_true, if_false] <;> assumption

variable [FromInput E]

theorem mono_takeWhile (n : Nat) (f : Char → Bool) : Mono (takeWhile n f : F E Text) :=
  mono_sim (sim_takeWhile _ _) (Parse.mono_takeWhile _ _)
theorem mono_chr (c : Char) : Mono (chr c : F E Unit) := mono_sim (sim_chr _) (Parse.mono_chr _)
theorem mono_sp {p : F E α} (h : Mono p) : Mono (sp p) := mono_bind (mono_takeWhile _ _) fun _ => h
theorem mono_ws {p : F E α} (h : Mono p) : Mono (ws p) := mono_bind (mono_takeWhile _ _) fun _ => h

theorem agree_sp {n : Nat} {p q : F E α} (h : Agree n p q) : Agree n (sp p) (sp q) :=
  agree_bind (agree_refl _ _) (mono_takeWhile _ _) fun _ => h
theorem agree_ws {n : Nat} {p q : F E α} (h : Agree n p q) : Agree n (ws p) (ws q) :=
  agree_bind (agree_refl _ _) (mono_takeWhile _ _) fun _ => h

theorem agree_manyAux {n : Nat} {p q : F E α} (h : Agree n p q) (hm : Mono p) : ∀ k s, s.length < n →
    manyAux p k s = manyAux q k s
  | 0, _, _ => rfl
  | k + 1, s, hs => by
    rw [manyAux, manyAux, ← h s hs]
    cases h1 : p s with
    | fail b e r => cases b <;> rfl
    | ok a r => simp only [agree_manyAux h hm k r (by have := hm _ _ _ h1; omega)]

theorem agree_many {n : Nat} {p q : F E α} (h : Agree n p q) (hm : Mono p) : Agree n (many p) (many q) :=
  fun s hs => agree_manyAux h hm _ s hs

theorem agree_punctuateAux {n : Nat} {f f' : F E α} {g g' : F E (α × Bool)} (hf : Agree n f f') (hm : Mono f)
    (hg : Agree n g g') : ∀ k acc prev s, s.length < n → (∀ s' acc', prev = some (s', acc') → s'.length < n) →
      punctuateAux f g k acc prev s = punctuateAux f' g' k acc prev s
  | 0, _, _, _, _, _ => rfl
  | k + 1, acc, prev, s, hs, hp => by
    rw [punctuateAux_succ, punctuateAux_succ, ← hf s hs, ← hg s hs]
    cases h1 : f s with
    | ok b m =>
      have := hm _ _ _ h1
      simp only [agree_punctuateAux hf hm hg k (b :: acc) (some (s, acc)) m (by omega)
        (fun s' acc' e => by cases e; omega)]
    | fail b e m => cases b with
      | true => rfl
      | false =>
        cases h2 : g s with
        | ok b m => rfl
        | fail b e m => cases b with
          | true => rfl
          | false =>
            cases prev with
            | none => rfl
            | some q => simp only [hg q.1 (hp q.1 q.2 rfl)]

theorem agree_commaList {n : Nat} {p q : F E α} (h : Agree n p q) (hm : Mono p) : Agree n (commaList p) (commaList q) :=
  fun s hs => agree_punctuateAux (agree_bind h hm fun _ => agree_refl _ _)
    (mono_bind hm fun _ => mono_bind (mono_ws (mono_chr _)) fun _ => mono_pure _)
    (agree_bind h hm fun _ => agree_refl _ _) _ _ _ s hs (fun _ _ e => by cases e)

theorem agree_surround {n : Nat} {o c : Char} {p q : F E α} (h : Agree n p q) (hm : Mono p) :
    Agree (n + 1) (surround o c p) (surround o c q) :=
  agree_eats (eats_sim (sim_chr _) (Parse.eats_chr o)) fun _ => agree_cutErr (agree_bind h hm fun _ => agree_refl _ _)

theorem agree_separated1 {n : Nat} {p q : F E α} {sep : F E β} (h : Agree n p q) (hm : Mono p) (hs : Mono sep)
    (hl : Mono (many (do let _ ← sep; p))) : Agree n (separated1 p sep) (separated1 q sep) :=
  agree_bind h hm fun _ => agree_bind (agree_many (agree_bind (agree_refl _ _) hs fun _ => h) (mono_bind hs fun _ => hm))
    hl fun _ => agree_refl _ _

end

/-! ### Types -/

theorem mono_commaList {E α : Type} [FromInput E] {p : F E α} {q : P α} (h : Sim p q) (hq : Parse.Mono q) : Mono (commaList p) :=
  mono_sim (sim_commaList h) (Parse.mono_commaList hq)

theorem agree_typeBody {n : Nat} {p p' : F (At × TypeCause) DataType} {q : P DataType} (h : Agree n p p') (hs : Sim p q)
    (hq : Parse.Mono q) : Agree (n + 1) (typeBody p) (typeBody p') := by
  have hi : Agree n (inner p) (inner p') := agree_mapErr h
  have hm : Mono (inner p) := mono_sim (sim_inner hs) hq
  have hl : Agree n (commaList (ws (inner p))) (commaList (ws (inner p'))) := agree_commaList (agree_ws hi) (mono_ws hm)
  have hlm : Mono (commaList (ws (inner p))) := mono_commaList (sim_ws (sim_inner hs)) (Parse.mono_ws hq)
  refine agree_mapErrAt <| agree_alt (agree_refl _ _) <| agree_alt ?_ <| agree_alt ?_ <| agree_alt ?_ ?_
  · refine agree_eats (eats_sim (sim_takeWhile _ _) (Parse.eats_takeWhile _ (by omega))) fun w => ?_
    have h1 : Agree n (parseSingle p) (parseSingle p') := agree_le (agree_cutErr (agree_surround hi hm)) (by omega)
    have h2 : Agree n (parsePair p) (parsePair p') := agree_le (agree_cutErr (agree_surround
      (agree_bind hi hm fun _ => agree_bind (agree_refl _ _) (mono_sp (mono_chr _)) fun _ =>
        agree_bind (agree_sp hi) (mono_sp hm) fun _ => agree_refl _ _)
      (mono_bind hm fun _ => mono_bind (mono_sp (mono_chr _)) fun _ => mono_bind (mono_sp hm) fun _ => mono_pure _))) (by omega)
    have m1 : Mono (parseSingle p) := mono_sim (sim_parseSingle hs) (Parse.mono_parseSingle hq)
    exact agree_ite (agree_bind h1 m1 fun _ => agree_refl _ _) <|
      agree_ite (agree_bind h2 (mono_sim (sim_parsePair hs) (Parse.mono_parsePair hq)) fun _ => agree_refl _ _) <|
      agree_ite (agree_bind h1 m1 fun _ => agree_refl _ _) <| agree_ite (agree_bind h1 m1 fun _ => agree_refl _ _) <|
      agree_ite (agree_bind h1 m1 fun _ => agree_refl _ _) (agree_refl _ _)
  · exact agree_bind (agree_surround hl hlm) (mono_sim (sim_surround (sim_commaList (sim_ws (sim_inner hs))))
      (Parse.mono_surround (Parse.mono_commaList (Parse.mono_ws hq)))) fun _ => agree_refl _ _
  · refine agree_bind (agree_surround (agree_bind (agree_ws hi) (mono_ws hm) fun _ => agree_refl _ _) ?_) ?_ fun _ => agree_refl _ _
    · exact mono_sim (sim_bind (sim_ws (sim_inner hs)) fun _ => sim_bind (sim_ws (sim_chr _)) fun _ =>
        sim_bind (sim_ws (sim_decUint _)) fun _ => sim_pure _) (Parse.mono_arrayBody hq)
    · exact mono_sim (sim_surround (sim_bind (sim_ws (sim_inner hs)) fun _ => sim_bind (sim_ws (sim_chr _)) fun _ =>
        sim_bind (sim_ws (sim_decUint _)) fun _ => sim_pure _)) (Parse.mono_surround (Parse.mono_arrayBody hq))
  · refine agree_bind (agree_refl _ _) ?_ fun _ => agree_bind (agree_refl _ _) (mono_sim (sim_name _ _) (Parse.mono_name _ _)) fun _ =>
      agree_bind (agree_le (agree_opt (agree_surround hl hlm)) (by omega)) ?_ fun _ => agree_refl _ _
    · exact mono_sim (sim_opt (sim_many1 (sim_bind (sim_mapErr (sim_nameOr _ _ _)) fun _ => sim_bind (sim_lit _) fun _ => sim_pure _)))
        (Parse.mono_opt (Parse.mono_many1 (Parse.eats_mono Parse.eats_segSep)))
    · exact mono_sim (sim_opt (sim_surround (sim_commaList (sim_ws (sim_inner hs)))))
        (Parse.mono_opt (Parse.mono_surround (Parse.mono_commaList (Parse.mono_ws hq))))

theorem agree_typeDepth : ∀ n m, n ≤ m → Agree n (typeDepth n) (typeDepth m)
  | 0, _, _ => fun _ h => by omega
  | n + 1, 0, h => by omega
  | n + 1, m + 1, h => agree_typeBody (agree_typeDepth n m (by omega)) (sim_typeDepth n) (Parse.mono_typeDepth n)

theorem typeDepth_enough {n : Nat} {s : Text} (h : s.length < n) : typeDepth n s = parseType s :=
  (agree_typeDepth (s.length + 1) n (by omega) s (by omega)).symm

/-- The recursion of the type parser unfolds. -/
theorem parseType_eq (s : Text) : parseType s = typeBody parseType s :=
  agree_typeBody (n := s.length) (fun _ h => typeDepth_enough h) (sim_typeDepth _) (Parse.mono_typeDepth _) s (by omega)

/-! ### Attributes -/

theorem agree_attrBody (std : Std) {n : Nat} {p p' : F AttributeCause Attribute} {q : P Attribute} (h : Agree n p p')
    (hs : Sim p q) (hq : Parse.Mono q) : Agree (n + 1) (attrBody std p) (attrBody std p') := by
  have hm := mono_sim hs hq
  have hl : Agree n (attrList ')' p) (attrList ')' p') :=
    agree_bind (agree_separated1 (agree_ws h) (mono_ws hm) (mono_ws (mono_chr _))
        (mono_sim (sim_many (sim_bind (sim_ws (sim_chr _)) fun _ => sim_ws hs))
          (Parse.mono_many (Parse.mono_bind (Parse.mono_ws (Parse.mono_chr _)) fun _ => Parse.mono_ws hq))))
      (mono_sim (sim_separated1 (sim_ws hs) (sim_ws (sim_chr _)))
        (Parse.mono_separated1 (Parse.mono_ws hq) (Parse.mono_ws (Parse.mono_chr _)))) fun _ => agree_refl _ _
  exact agree_eats (eats_sim (sim_name _ _) (Parse.eats_name _ _)) fun _ => agree_alt
    (agree_bind (agree_refl _ _) (mono_chr _) fun _ => agree_bind (agree_cutErr hl)
      (mono_sim (sim_cutErr (sim_attrList hs)) (Parse.mono_cutErr (Parse.mono_attrList hq))) fun _ => agree_refl _ _)
    (agree_refl _ _)

theorem agree_attrDepth (std : Std) : ∀ n m, n ≤ m → Agree n (attrDepth std n) (attrDepth std m)
  | 0, _, _ => fun _ h => by omega
  | n + 1, 0, h => by omega
  | n + 1, m + 1, h => agree_attrBody std (agree_attrDepth std n m (by omega)) (sim_attrDepth std n) (Parse.mono_attrDepth std n)

theorem attrDepth_enough (std : Std) {n : Nat} {s : Text} (h : s.length < n) : attrDepth std n s = parseAttr std s :=
  (agree_attrDepth std (s.length + 1) n (by omega) s (by omega)).symm

/-- The recursion of the attribute parser unfolds. -/
theorem parseAttr_eq (std : Std) (s : Text) : parseAttr std s = attrBody std (parseAttr std) s :=
  agree_attrBody std (n := s.length) (fun _ h => attrDepth_enough std h) (sim_attrDepth std _) (Parse.mono_attrDepth std _) s (by omega)

/-! ### Definitions -/

theorem agree_defBody (std : Std) {n : Nat} {p p' : F DefinitionError Definition} {q : P Definition} (h : Agree n p p')
    (hs : Sim p q) (hq : Parse.Mono q) : Agree (n + 1) (defBody std p) (defBody std p') := by
  have hl : Agree n (sp (surround '{' '}' (many (ws (mapErr ModuleCause.definition p)))))
      (sp (surround '{' '}' (many (ws (mapErr ModuleCause.definition p'))))) :=
    agree_le (agree_sp (agree_surround (agree_many (agree_ws (agree_mapErr h)) (mono_ws (mono_mapErr (mono_sim hs hq))))
      (mono_sim (sim_many (sim_ws (sim_mapErr hs))) (Parse.mono_many (Parse.mono_ws hq))))) (by omega)
  refine agree_bind (agree_refl _ _) (mono_sim (sim_ws (sim_mapErr sim_parseComments)) (Parse.mono_ws Parse.mono_parseComments)) fun _ =>
    agree_bind (agree_refl _ _) (mono_sim (sim_ws (sim_mapErr (sim_parseAttributes std))) (Parse.mono_ws (Parse.mono_parseAttributes std)))
      fun _ => agree_bind (agree_sp ?_) (mono_sim (sim_sp (sim_defKind std hs)) (Parse.mono_sp (Parse.eats_mono (Parse.eats_defKind std hq))))
        fun _ => agree_refl _ _
  refine agree_bind (agree_refl _ _) (mono_sim sim_peekAny Parse.mono_peekAny) fun c => agree_ite ?_ (agree_refl _ _)
  exact agree_mapErr <| agree_mapErrAt <| agree_eats (eats_sim (sim_lit _) (Parse.eats_lit (by decide))) fun _ =>
    agree_bind (agree_refl _ _) (mono_takeWhile _ _) fun _ => agree_cutErr <|
      agree_bind (agree_refl _ _) (mono_sim (sim_nameOr _ _ _) (Parse.mono_name _ _)) fun _ => agree_bind hl
        (mono_sim (sim_sp (sim_surround (sim_many (sim_ws (sim_mapErr hs)))))
          (Parse.mono_sp (Parse.mono_surround (Parse.mono_many (Parse.mono_ws hq))))) fun _ => agree_refl _ _

theorem agree_defDepth (std : Std) : ∀ n m, n ≤ m → Agree n (defDepth std n) (defDepth std m)
  | 0, _, _ => fun _ h => by omega
  | n + 1, 0, h => by omega
  | n + 1, m + 1, h => agree_defBody std (agree_defDepth std n m (by omega)) (sim_defDepth std n) (Parse.mono_defDepth std n)

theorem defDepth_enough (std : Std) {n : Nat} {s : Text} (h : s.length < n) : defDepth std n s = parseDefinition std s :=
  (agree_defDepth std (s.length + 1) n (by omega) s (by omega)).symm

/-- The recursion of the definition parser unfolds. -/
theorem parseDefinition_eq (std : Std) (s : Text) : parseDefinition std s = defBody std (parseDefinition std) s :=
  agree_defBody std (n := s.length) (fun _ h => defDepth_enough std h) (sim_defDepth std _) (Parse.mono_defDepth std _) s (by omega)

end Mabo.Failing
