import Verif.Parser.TypesLemmas
import Verif.Parser.ListRound
import Verif.Parser.NumLemmas
import Verif.Spec.Syntax
/-! Printed types are read back, and types that are read satisfy `TypeOk`. -/
namespace Mabo.Parse
open Mabo.Ast Mabo.Spec
open Mabo.Schema (Prim)

/-! ### Character classes -/

theorem char_range (c : Char) (lo n : Nat) (l : List Char) (h1 : lo ≤ c.toNat) (h2 : c.toNat < lo + n)
    (h : ∀ k : Fin n, Char.ofNat (lo + k.val) ∈ l) : c ∈ l := by
  have := h ⟨c.toNat - lo, by omega⟩
  simp only at this
  rw [show lo + (c.toNat - lo) = c.toNat by omega, Char.ofNat_toNat] at this
  exact this

theorem isLower_iff (c : Char) : isLower c = true ↔ c ∈ lowers := by
  constructor
  · intro h
    simp only [isLower, Bool.and_eq_true, decide_eq_true_eq, Char.le_def, UInt32.le_iff_toNat_le] at h
    have h1 : 97 ≤ c.toNat := h.1
    have h2 : c.toNat ≤ 122 := h.2
    exact char_range c 97 26 _ h1 (by omega) (by decide)
  · have : ∀ c ∈ lowers, isLower c = true := by decide
    exact this c

theorem isUpper_iff (c : Char) : isUpper c = true ↔ c ∈ uppers := by
  constructor
  · intro h
    simp only [isUpper, Bool.and_eq_true, decide_eq_true_eq, Char.le_def, UInt32.le_iff_toNat_le] at h
    have h1 : 65 ≤ c.toNat := h.1
    have h2 : c.toNat ≤ 90 := h.2
    exact char_range c 65 26 _ h1 (by omega) (by decide)
  · have : ∀ c ∈ uppers, isUpper c = true := by decide
    exact this c

theorem isDigit_iff (c : Char) : isDigit c = true ↔ c ∈ digits := by
  constructor
  · intro h
    simp only [isDigit, Bool.and_eq_true, decide_eq_true_eq, Char.le_def, UInt32.le_iff_toNat_le] at h
    have h1 : 48 ≤ c.toNat := h.1
    have h2 : c.toNat ≤ 57 := h.2
    exact char_range c 48 10 _ h1 (by omega) (by decide)
  · have : ∀ c ∈ digits, isDigit c = true := by decide
    exact this c

theorem isSegChar_iff (c : Char) : isSegChar c = true ↔ c ∈ lowers ++ digits ++ ['_'] := by
  simp [isSegChar, isLower_iff, isDigit_iff, List.mem_append, or_assoc]

theorem isAlnum_iff (c : Char) : isAlnum c = true ↔ c ∈ lowers ++ uppers ++ digits := by
  simp [isAlnum, isLower_iff, isUpper_iff, isDigit_iff, List.mem_append, or_assoc]

theorem isExtChar_iff (c : Char) : isExtChar c = true ↔ c ∈ lowers ++ uppers ++ digits ++ ['_'] := by
  simp [isExtChar, isAlnum_iff, List.mem_append, or_assoc]

theorem ident_iff {hd tl : Char → Bool} {h t : List Char} (h1 : ∀ c, hd c = true ↔ c ∈ h) (h2 : ∀ c, tl c = true ↔ c ∈ t)
    (n : String) : Ident h t n ↔ IsName hd tl n := by
  simp only [Ident, IsName, h1, h2]

theorem snakeName_iff (n : String) : SnakeName n ↔ IsName isLower isSegChar n := ident_iff isLower_iff isSegChar_iff n
theorem refName_iff (n : String) : RefName n ↔ IsName isUpper isExtChar n := ident_iff isUpper_iff isExtChar_iff n
theorem camelName_iff (n : String) : CamelName n ↔ IsName isUpper isAlnum n := ident_iff isUpper_iff isAlnum_iff n

theorem typeEnd_iff (r : Text) : TypeEnd r ↔ Stop (fun c => isExtChar c || c == '&' || c == '<') r := by
  have : ∀ c, ((isExtChar c || c == '&' || c == '<') = false ↔ c ∉ lowers ++ uppers ++ digits ++ ['_', '&', '<']) := by
    intro c
    rw [← Bool.not_eq_true]
    simp [isExtChar_iff, List.mem_append, or_assoc]
  exact ⟨fun h c hc => (this c).2 (h c hc), fun h c hc => (this c).1 (h c hc)⟩

theorem stop_mono {f g : Char → Bool} (h : ∀ c, g c = true → f c = true) {s : Text} (hs : Stop f s) : Stop g s := by
  intro c hc
  have := hs c hc
  cases hg : g c with
  | false => rfl
  | true => rw [h c hg] at this; cases this

theorem typeEnd_ext {r : Text} (h : TypeEnd r) : Stop isExtChar r :=
  stop_mono (fun c hc => by simp [hc]) ((typeEnd_iff r).1 h)

theorem typeEnd_basic {r : Text} (h : TypeEnd r) : Stop isBasicChar r := by
  refine stop_mono (fun c hc => ?_) ((typeEnd_iff r).1 h)
  simp only [isBasicChar, isExtChar, isAlnum, Bool.or_eq_true] at *
  rcases hc with (h | h) | h <;> simp [h]

theorem typeEnd_angle {r : Text} (h : TypeEnd r) : ∀ c, r.head? = some c → c ≠ '<' := by
  intro c hc e
  subst e
  exact h _ hc (by decide)

/-! ### Parsers that do not apply -/

theorem takeWhile_head {f : Char → Bool} {c : Char} {s : Text} {n : Nat} (h : f c = false) (hn : 0 < n) :
    takeWhile n f (c :: s) = .back := takeWhile_back (w := []) (by simp) (stop_cons.2 h) hn

theorem many1_back {α : Type} {p : P α} {s : Text} (h : p s = .back) : many1 p s = .back := bind_back h

theorem parseTuple_head {p : P DataType} {c : Char} {s : Text} (h : c ≠ '(') : parseTuple p (c :: s) = .back :=
  bind_back (surround_back h)

theorem parseArray_head {p : P DataType} {c : Char} {s : Text} (h : c ≠ '[') : parseArray p (c :: s) = .back :=
  bind_back (surround_back h)

theorem parseBasic_head {c : Char} {s : Text} (h : isBasicChar c = false) : parseBasic (c :: s) = .back := by
  unfold parseBasic
  have hb : c ≠ 'b' := by rintro rfl; exact absurd h (by decide)
  rw [alt_right (bind_back (takeWhile_head h (by decide))),
    alt_right (bind_back (lit_back_of_head rfl hb))]
  exact bind_back (lit_back_of_head rfl hb)

theorem parseGeneric_head {p : P DataType} {c : Char} {s : Text} (h : isGenericChar c = false) :
    parseGeneric p (c :: s) = .back :=
  bind_back (takeWhile_back (w := []) (by simp) (stop_cons.2 h) (by decide))

theorem parseExternal_head {p : P DataType} {c : Char} {s : Text} (h1 : isLower c = false) (h2 : isUpper c = false) :
    parseExternal p (c :: s) = .back := by
  rw [parseExternal_eq]
  have hs : segSep (c :: s) = .back := bind_back (name_back (stop_cons.2 h1))
  rw [bind_ok (opt_none (many1_back hs))]
  exact bind_back (name_back (stop_cons.2 h2))

theorem parseType_head {c : Char} {s : Text} (h : isExtChar c = false) (h1 : c ≠ '&') (h2 : c ≠ '(') (h3 : c ≠ '[') :
    parseType (c :: s) = .back := by
  have ⟨⟨⟨e1, e2⟩, e3⟩, e4⟩ : ((isLower c = false ∧ isUpper c = false) ∧ isDigit c = false) ∧ (c == '_') = false := by
    simpa only [isExtChar, isAlnum, Bool.or_eq_false_iff] using h
  have e5 : (c == '&') = false := by simpa using h1
  rw [parseType_eq]
  unfold typeBody
  rw [alt_right (parseBasic_head (by simp [isBasicChar, e1, e3, e5])),
    alt_right (parseGeneric_head (by simp [isGenericChar, e1, e4])),
    alt_right (parseTuple_head h2), alt_right (parseArray_head h3)]
  exact parseExternal_head e1 e2

theorem parseType_nil : parseType [] = .back := rfl

theorem eats_parseType : Eats parseType := by
  intro s t r h
  rw [parseType_eq] at h
  have hm := mono_parseType
  refine eats_alt ?_ (eats_alt ?_ (eats_alt ?_ (eats_alt ?_ ?_))) s t r h
  · refine eats_alt (eats_bind_left (eats_takeWhile _ (by omega)) fun w => ?_)
      (eats_alt (eats_bind_left (eats_lit (by decide)) fun _ => mono_pure _)
        (eats_bind_left (eats_lit (by decide)) fun _ => mono_pure _))
    split
    · exact mono_pure _
    · exact mono_fail
  · refine eats_bind_left (eats_takeWhile _ (by omega)) fun w => ?_
    have hs : ∀ f : DataType → DataType, Mono (do let t ← parseSingle parseType; pure (f t) : P DataType) :=
      fun f => mono_bind (mono_parseSingle hm) fun _ => mono_pure _
    simp only []
    repeat' split
    · exact hs _
    · exact mono_bind (mono_parsePair hm) fun _ => mono_pure _
    · exact hs _
    · exact hs _
    · exact hs _
    · exact mono_fail
  · exact eats_bind_left (eats_surround (mono_commaList (mono_ws hm))) fun _ => mono_pure _
  · exact eats_bind_left (eats_surround (mono_arrayBody hm)) fun _ => mono_pure _
  · rw [parseExternal_eq]
    refine eats_bind_right (mono_opt (mono_many1 (eats_mono eats_segSep))) fun _ => eats_bind_left (eats_name _ _) fun _ =>
      mono_bind (mono_opt (mono_surround (mono_commaList (mono_ws hm)))) fun _ => ?_
    split <;> exact mono_pure _

/-- A text that a type starts does not start with white space. -/
theorem parseType_stop {s r : Text} {t : DataType} (h : parseType s = .ok t r) : Stop isMulti s := by
  intro c hc
  cases s with
  | nil => cases hc
  | cons d s =>
    injection hc with e
    subst e
    cases hm : isMulti d with
    | false => rfl
    | true =>
      simp only [isMulti, Bool.or_eq_true, beq_iff_eq] at hm
      have : parseType (d :: s) = .back := by
        rcases hm with ((rfl | rfl) | rfl) | rfl <;> exact parseType_head (by decide) (by decide) (by decide) (by decide)
      rw [this] at h; cases h

theorem ws_parseType {s r : Text} {t : DataType} (h : parseType s = .ok t r) : ws parseType s = .ok t r := by
  rw [ws_stop (parseType_stop h)]; exact h

/-! ### Keywords -/

theorem parseBasic_generic (s : Text) : ∀ w ∈ genericNames, parseBasic (w.toList ++ '<' :: s) = .back := by
  intro w hw
  simp only [genericNames, List.mem_cons, List.not_mem_nil, or_false] at hw
  rcases hw with rfl | rfl | rfl | rfl | rfl <;> rfl

theorem generic_word {w : String} (hw : w ∈ genericNames) (s : Text) :
    takeWhile 3 isGenericChar (w.toList ++ '<' :: s) = .ok w.toList ('<' :: s) := by
  have : ∀ w ∈ genericNames, (∀ c ∈ w.toList, isGenericChar c = true) ∧ 3 ≤ w.toList.length := by decide
  exact takeWhile_ok (this w hw).1 (stop_cons.2 (by decide)) (this w hw).2

theorem parseSingle_print {t : DataType} {rest : Text}
    (h : parseType (printType t ++ '>' :: rest) = .ok t ('>' :: rest)) :
    parseSingle parseType ('<' :: (printType t ++ '>' :: rest)) = .ok t rest := by
  refine cutErr_ok.2 (surround_ok h ?_)
  rw [ws_stop (stop_cons.2 (by decide))]
  exact chr_ok _ _

theorem typeEnd_cons {c : Char} {s : Text} (h : c ∉ lowers ++ uppers ++ digits ++ ['_', '&', '<']) : TypeEnd (c :: s) :=
  fun d hd => by injection hd with hd; rw [← hd]; exact h

/-! ### Paths -/

theorem takeWhile_congr {f g : Char → Bool} {l r : Text} (h : ∀ c ∈ l, f c = g c) (hr : Stop f r) :
    (l ++ r).takeWhile f = l.takeWhile g := by
  induction l with
  | nil =>
    cases r with
    | nil => rfl
    | cons c r => simp [stop_cons.1 hr]
  | cons c l ih =>
    have h1 := h c (by simp)
    have h2 := ih (fun d hd => h d (by simp [hd]))
    rw [List.cons_append, List.takeWhile_cons, List.takeWhile_cons, h1, h2]

theorem snake_seg {n : String} (h : SnakeName n) : ∀ c ∈ n.toList, isSegChar c = true := by
  obtain ⟨c, cs, h1, h2, h3⟩ := (snakeName_iff n).1 h
  rw [h1]
  intro d hd
  rcases List.mem_cons.1 hd with rfl | hd
  · simp [isSegChar, h2]
  · exact h3 d hd

/-- The word that `parse_basic` looks at. -/
theorem basic_word {n : String} (h : SnakeName n) (s : Text) :
    (n.toList ++ ':' :: s).takeWhile isBasicChar = n.toList.takeWhile (· ≠ '_') := by
  refine takeWhile_congr (fun c hc => ?_) (stop_cons.2 (by decide))
  have := snake_seg h c hc
  by_cases h1 : c = '_'
  · subst h1; decide
  · simp only [isSegChar, beq_iff_eq, Bool.or_eq_true, h1, or_false] at this
    simp only [isBasicChar, h1, ne_eq, not_false_eq_true, decide_true, Bool.or_eq_true]
    exact .inl this

/-- The word that `parse_generic` looks at. -/
theorem generic_word' {n : String} (h : SnakeName n) (s : Text) :
    (n.toList ++ ':' :: s).takeWhile isGenericChar = n.toList.takeWhile (· ∉ digits) := by
  refine takeWhile_congr (fun c hc => ?_) (stop_cons.2 (by decide))
  have := snake_seg h c hc
  cases hd : isDigit c with
  | true =>
    have h1 := (isDigit_iff c).1 hd
    have : ∀ c ∈ digits, isGenericChar c = false := by decide
    simp [this c h1, h1]
  | false =>
    have h1 : c ∉ digits := fun e => by rw [(isDigit_iff c).2 e] at hd; cases hd
    simp only [isSegChar, hd, Bool.or_false] at this
    simp only [isGenericChar, this, h1, not_false_eq_true, decide_true]

theorem basicOf_iff {w : String} (h : ∀ c ∈ w.toList, c ≠ '&') : (basicOf w).isSome = true ↔ w ∈ basicNames := by
  constructor
  · intro hs
    have e1 : w ≠ "&string" := by rintro rfl; exact absurd rfl (h '&' (by decide))
    have e2 : w ≠ "&bytes" := by rintro rfl; exact absurd rfl (h '&' (by decide))
    refine Classical.byContradiction fun hn => ?_
    simp only [basicNames, List.mem_cons, List.not_mem_nil, or_false, not_or] at hn
    obtain ⟨n1, n2, n3, n4, n5, n6, n7, n8, n9, n10, n11, n12, n13, n14, n15⟩ := hn
    rw [basicOf, if_neg n1, if_neg n2, if_neg n3, if_neg n4, if_neg n5, if_neg n6, if_neg n7, if_neg n8, if_neg n9,
      if_neg n10, if_neg n11, if_neg n12, if_neg n13, if_neg n14, if_neg e1, if_neg n15, if_neg e2] at hs
    cases hs
  · have : ∀ w ∈ basicNames, (basicOf w).isSome = true := by decide
    exact this w

theorem lit_box_back {n : String} (h : SnakeName n) (s : Text) {w : String} (hw : ∃ m, w.toList = ['b', 'o', 'x'] ++ '<' :: m) :
    lit w (n.toList ++ ':' :: s) = .back := by
  cases hl : lit w (n.toList ++ ':' :: s) with
  | back => rfl
  | cut => unfold lit at hl; split at hl <;> cases hl
  | ok u r =>
    have e := lit_eq_ok hl
    obtain ⟨m, hm⟩ := hw
    rw [hm, List.append_assoc] at e
    have h1 := (takeWhile_append_stop (f := isSegChar) (snake_seg h) (stop_cons (c := ':') (s := s).2 (by decide))).2
    have h2 := (takeWhile_append_stop (f := isSegChar) (w := ['b', 'o', 'x']) (r := '<' :: m ++ r) (by decide)
      (stop_cons.2 (by decide))).2
    rw [e, h2] at h1
    cases h1

theorem parseBasic_path {n : String} (h : SnakeName n) (s : Text) :
    (parseBasic (n.toList ++ ':' :: s) = .back ↔ String.ofList (n.toList.takeWhile (· ≠ '_')) ∉ basicNames) ∧
      (String.ofList (n.toList.takeWhile (· ≠ '_')) ∈ basicNames →
        ∃ p, parseBasic (n.toList ++ ':' :: s) = .ok (.prim p) ((n.toList ++ ':' :: s).dropWhile isBasicChar)) := by
  have hamp : ∀ c ∈ (String.ofList (n.toList.takeWhile (· ≠ '_'))).toList, c ≠ '&' := by
    intro c hc e
    rw [String.toList_ofList] at hc
    have := snake_seg h c ((List.takeWhile_prefix _).subset hc)
    subst e
    exact absurd this (by decide)
  have hlong : ∀ w ∈ basicNames, 2 ≤ w.toList.length := by decide
  have hbox : alt (do lit "box<string>"; pure (.prim .boxString)) (do lit "box<bytes>"; pure (.prim .boxBytes))
      (n.toList ++ ':' :: s) = (.back : Res DataType) := by
    rw [alt_right (bind_back (lit_box_back h s ⟨_, rfl⟩))]
    exact bind_back (lit_box_back h s ⟨_, rfl⟩)
  have hin : String.ofList (n.toList.takeWhile (· ≠ '_')) ∈ basicNames →
        ∃ p, parseBasic (n.toList ++ ':' :: s) = .ok (.prim p) ((n.toList ++ ':' :: s).dropWhile isBasicChar) := by
    intro hm
    obtain ⟨p, hp⟩ := Option.isSome_iff_exists.1 ((basicOf_iff hamp).2 hm)
    refine ⟨p, alt_left ?_⟩
    have hl := hlong _ hm
    rw [String.toList_ofList] at hl
    have ht : takeWhile 2 isBasicChar (n.toList ++ ':' :: s) =
        .ok (n.toList.takeWhile (· ≠ '_')) ((n.toList ++ ':' :: s).dropWhile isBasicChar) := by
      rw [takeWhile, basic_word h, if_neg (by omega)]
    rw [bind_ok ht, hp]; rfl
  refine ⟨⟨fun hb hm => ?_, fun hm => ?_⟩, hin⟩
  · obtain ⟨p, hp⟩ := hin hm
    rw [hp] at hb; cases hb
  · unfold parseBasic
    rw [alt_right, hbox]
    rw [bind_run, takeWhile, basic_word h]
    split
    · rename_i heq
      split at heq
      · cases heq
      · injection heq with e1 e2
        subst e1
        cases hb : basicOf (String.ofList (n.toList.takeWhile (· ≠ '_'))) with
        | some p => exact absurd ((basicOf_iff hamp).1 (by rw [hb]; rfl)) hm
        | none => rfl
    · rfl
    · rename_i heq; split at heq <;> cases heq

end Mabo.Parse
