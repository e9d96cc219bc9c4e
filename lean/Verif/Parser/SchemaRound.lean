import Verif.Parser.SchemaLemmas
import Verif.Parser.ListRound
import Verif.Spec.SchemaSyntax
/-! Definitions that are printed are read back. -/
namespace Mabo.Parse
open Mabo.Ast Mabo.Spec

/-! ### Blanks -/

/-- Spaces and tabs only. -/
def Blank (w : Text) : Prop := ∀ d ∈ w, isSpace d = true

theorem blank_nil : Blank [] := fun _ h => by cases h
theorem blank_indent (n : Nat) : Blank (indent n) := fun d h => by rw [(List.mem_replicate.1 h).2]; decide
theorem space_multi {c : Char} (h : isSpace c = true) : isMulti c = true := by
  simp only [isSpace, isMulti, Bool.or_eq_true, beq_iff_eq] at *
  rcases h with h | h <;> simp [h]
theorem multi_space {c : Char} (h : isMulti c = false) : isSpace c = false := by
  cases hs : isSpace c with
  | false => rfl
  | true => rw [space_multi hs] at h; cases h

theorem sp_blank {α : Type} {p : P α} {w s : Text} (h : Blank w) : sp p (w ++ s) = sp p s := by
  induction w with
  | nil => rfl
  | cons c w ih => rw [List.cons_append, sp_skip (h c (by simp)), ih fun d hd => h d (by simp [hd])]

theorem ws_blanks {α : Type} {p : P α} {w s : Text} (h : ∀ d ∈ w, isMulti d = true) : ws p (w ++ s) = ws p s := by
  induction w with
  | nil => rfl
  | cons c w ih => rw [List.cons_append, ws_skip (h c (by simp)), ih fun d hd => h d (by simp [hd])]

theorem ws_blank {α : Type} {p : P α} {w s : Text} (h : Blank w) : ws p (w ++ s) = ws p s :=
  ws_blanks fun d hd => space_multi (h d hd)

/-! ### Comments -/

theorem commentLine_print {l : String} (h1 : '\n' ∉ l.toList) (h2 : l.toList.head? ≠ some ' ')
    (h3 : l.toList.head? ≠ some '\t') {ind : Text} (hi : Blank ind) (r : Text) :
    commentLine (ind ++ ("/// ".toList ++ (l.toList ++ '\n' :: r))) = .ok l r := by
  unfold commentLine
  have e1 : space0 (ind ++ ("/// ".toList ++ (l.toList ++ '\n' :: r))) = .ok ind ("/// ".toList ++ (l.toList ++ '\n' :: r)) :=
    takeWhile_ok hi (stop_cons.2 (by decide)) (by omega)
  have e2 : lit "///" ("/// ".toList ++ (l.toList ++ '\n' :: r)) = .ok () ([' '] ++ (l.toList ++ '\n' :: r)) :=
    lit_ok "///" (' ' :: (l.toList ++ '\n' :: r))
  have hs : Stop isSpace (l.toList ++ '\n' :: r) := by
    intro c hc
    cases hl : l.toList with
    | nil => rw [hl] at hc; cases hc; decide
    | cons d ds =>
      rw [hl] at hc h2 h3
      cases hc
      have a : c ≠ ' ' := fun e => h2 (by rw [e]; rfl)
      have b : c ≠ '\t' := fun e => h3 (by rw [e]; rfl)
      simp [isSpace, a, b]
  have e3 : space0 ([' '] ++ (l.toList ++ '\n' :: r)) = .ok [' '] (l.toList ++ '\n' :: r) :=
    takeWhile_ok (by decide) hs (by omega)
  have e4 : takeWhile 0 (· != '\n') (l.toList ++ '\n' :: r) = .ok l.toList ('\n' :: r) :=
    takeWhile_ok (fun c hc => by
      have : c ≠ '\n' := fun e => h1 (e ▸ hc)
      simp [this]) (stop_cons.2 (by decide)) (by omega)
  rw [bind_ok e1, bind_ok e2, bind_ok e3, bind_ok e4, bind_ok (chr_ok _ _), String.ofList_toList]; rfl

/-- A character that starts something other than a comment. -/
def Starts (c : Char) : Prop := isMulti c = false ∧ c ≠ '/'

theorem commentLine_back {c : Char} {s ind : Text} (hi : Blank ind) (hs : isSpace c = false) (hc : c ≠ '/') :
    commentLine (ind ++ c :: s) = .back := by
  unfold commentLine
  have e1 : space0 (ind ++ c :: s) = .ok ind (c :: s) :=
    takeWhile_ok hi (stop_cons.2 hs) (by omega)
  rw [bind_ok e1]
  exact bind_back (lit_back_of_head (c := '/') rfl hc)

theorem comments_print {level : Nat} {lines : List String} (h : CommentWf lines) {c : Char} {s ind : Text}
    (hi : Blank ind) (hs : isSpace c = false) (hc : c ≠ '/') :
    parseComments (printComment level lines ++ (ind ++ c :: s)) = .ok lines (ind ++ c :: s) := by
  induction lines with
  | nil => exact many_back (commentLine_back hi hs hc)
  | cons l ls ih =>
    have ⟨h1, h2, h3⟩ := h l (by simp)
    have e : printComment level (l :: ls) ++ (ind ++ c :: s) =
        indent level ++ ("/// ".toList ++ (l.toList ++ '\n' :: (printComment level ls ++ (ind ++ c :: s)))) := by
      simp only [printComment, List.append_assoc, List.cons_append]
    rw [e]
    exact many_ok eats_commentLine (commentLine_print h1 h2 h3 (blank_indent _) _)
      (ih fun x hx => h x (by simp [hx]))

/-- A comment after any white space; the indentation of what follows may or may not be consumed. -/
theorem ws_comments {level : Nat} {lines : List String} (h : CommentWf lines) {c : Char} {s ind w : Text}
    (hw : ∀ d ∈ w, isMulti d = true) (hi : Blank ind) (hc : Starts c) :
    ∃ ind', Blank ind' ∧ ws parseComments (w ++ (printComment level lines ++ (ind ++ c :: s))) =
      .ok lines (ind' ++ c :: s) := by
  cases lines with
  | nil =>
    refine ⟨[], blank_nil, ?_⟩
    rw [ws_blanks hw]
    show ws parseComments (ind ++ c :: s) = _
    rw [ws_blank hi, ws_stop (stop_cons.2 hc.1)]
    exact many_back (commentLine_back blank_nil (multi_space hc.1) hc.2)
  | cons l ls =>
    refine ⟨ind, hi, ?_⟩
    have ⟨h1, h2, h3⟩ := h l (by simp)
    have e : printComment level (l :: ls) ++ (ind ++ c :: s) =
        indent level ++ ("/// ".toList ++ (l.toList ++ '\n' :: (printComment level ls ++ (ind ++ c :: s)))) := by
      simp only [printComment, List.append_assoc, List.cons_append]
    have hst : Stop isMulti ("/// ".toList ++ (l.toList ++ '\n' :: (printComment level ls ++ (ind ++ c :: s)))) :=
      stop_cons.2 (by decide)
    rw [ws_blanks hw, e, ws_blank (blank_indent _), ws_stop hst]
    exact many_ok eats_commentLine (commentLine_print h1 h2 h3 blank_nil _)
      (comments_print (fun x hx => h x (by simp [hx])) hi (multi_space hc.1) hc.2)

/-! ### Attributes -/

/-- What can follow an attribute. -/
def AttrEnd (r : Text) : Prop := ∃ c cs, r = c :: cs ∧ c ∈ [',', ')', ']']

theorem attrEnd_stop {f : Char → Bool} (hf : ∀ c ∈ [',', ')', ']'], f c = false) {r : Text} (h : AttrEnd r) :
    Stop f r := by
  obtain ⟨c, cs, rfl, hc⟩ := h
  exact stop_cons.2 (hf c hc)

theorem attrEnd_literal {r : Text} (h : AttrEnd r) : LiteralEnd r := by
  obtain ⟨c, cs, rfl, hc⟩ := h
  intro d hd
  cases hd
  have : ∀ c ∈ [',', ')', ']'], c ∉ digits ++ ['.', 'e', 'E'] := by decide
  exact this c hc

theorem printAttrs_cons (std : Std) (a b : Attribute) (as : List Attribute) :
    printAttrs std (a :: b :: as) = printAttr std a ++ ", ".toList ++ printAttrs std (b :: as) := rfl

theorem snake_head {n : String} (h : SnakeName n) : ∃ c cs, n.toList = c :: cs ∧ isLower c = true := by
  obtain ⟨c, cs, h1, h2, _⟩ := (snakeName_iff n).1 h
  exact ⟨c, cs, h1, h2⟩

theorem attr_head (std : Std) {a : Attribute} (h : AttrWf a) : ∃ c cs, printAttr std a = c :: cs ∧ isLower c = true := by
  cases a with
  | unit n => rw [AttrWf] at h; exact snake_head h
  | single n l =>
    rw [AttrWf] at h
    obtain ⟨c, cs, h1, h2⟩ := snake_head h
    exact ⟨c, cs ++ " = ".toList ++ printLiteral std l, by rw [printAttr, h1]; rfl, h2⟩
  | multi n as =>
    rw [AttrWf] at h
    obtain ⟨c, cs, h1, h2⟩ := snake_head h.1
    cases as with
    | nil => exact absurd rfl h.2.1
    | cons a as => exact ⟨c, cs ++ '(' :: (printAttrs std (a :: as) ++ [')']), by rw [printAttr, h1]; rfl; simp, h2⟩

theorem lower_not_multi {c : Char} (h : isLower c = true) : isMulti c = false := by
  rw [isLower_iff] at h
  have : ∀ c ∈ lowers, isMulti c = false := by decide
  exact this c h

/-- The items of an attribute list. -/
theorem attrs_sep (std : Std) {close : Char} (hclose : close = ')' ∨ close = ']') (r : Text) : ∀ (as : List Attribute), as ≠ [] →
    (∀ a ∈ as, AttrWf a ∧ ∀ r, AttrEnd r → parseAttr std (printAttr std a ++ r) = .ok a r) →
    separated1 (ws (parseAttr std)) (ws (chr ',')) (printAttrs std as ++ close :: r) = .ok as (close :: r) ∧
    many (do let _ ← ws (chr ','); ws (parseAttr std)) (',' :: ' ' :: (printAttrs std as ++ close :: r)) =
      .ok as (close :: r)
  | [], h, _ => absurd rfl h
  | [a], _, h => by
    have ⟨hwf, hp⟩ := h a (by simp)
    obtain ⟨c, cs, h1, h2⟩ := attr_head std hwf
    have hend : AttrEnd (close :: r) := ⟨close, r, rfl, by rcases hclose with rfl | rfl <;> simp⟩
    have hws : ws (parseAttr std) (printAttr std a ++ close :: r) = .ok a (close :: r) := by
      rw [ws_stop (by rw [h1]; exact stop_cons.2 (lower_not_multi h2))]; exact hp _ hend
    have hback : (do let _ ← ws (chr ','); ws (parseAttr std)) (close :: r) = .back := by
      refine bind_back ?_
      rcases hclose with rfl | rfl <;> (rw [ws_stop (stop_cons.2 (by decide))]; exact chr_back _ (by decide))
    have heats : Eats (do let _ ← ws (chr ','); ws (parseAttr std)) :=
      eats_bind_left (eats_ws (eats_chr _)) fun _ => mono_ws (mono_parseAttr std)
    constructor
    · unfold separated1
      show (ws (parseAttr std) >>= _) (printAttr std a ++ close :: r) = _
      rw [bind_ok hws, bind_ok (many_back hback)]; rfl
    · refine many_ok heats (r := close :: r) ?_ (many_back hback)
      have : ws (chr ',') (',' :: ' ' :: (printAttrs std [a] ++ close :: r)) = .ok () (' ' :: (printAttrs std [a] ++ close :: r)) := by
        rw [ws_stop (stop_cons.2 (by decide))]; exact chr_ok _ _
      rw [bind_ok this, ws_skip (by decide)]; exact hws
  | a :: b :: as, _, h => by
    have ⟨hwf, hp⟩ := h a (by simp)
    obtain ⟨c, cs, h1, h2⟩ := attr_head std hwf
    obtain ⟨_, ih⟩ := attrs_sep std hclose r (b :: as) (by simp) fun x hx => h x (by simp [hx])
    have hws : ∀ m, ws (parseAttr std) (printAttr std a ++ ',' :: m) = .ok a (',' :: m) := fun m => by
      rw [ws_stop (by rw [h1]; exact stop_cons.2 (lower_not_multi h2))]; exact hp _ ⟨',', m, rfl, by simp⟩
    have heats : Eats (do let _ ← ws (chr ','); ws (parseAttr std)) :=
      eats_bind_left (eats_ws (eats_chr _)) fun _ => mono_ws (mono_parseAttr std)
    have e : printAttrs std (a :: b :: as) ++ close :: r =
        printAttr std a ++ ',' :: ' ' :: (printAttrs std (b :: as) ++ close :: r) := by
      rw [printAttrs_cons]; simp
    constructor
    · unfold separated1
      rw [e, bind_ok (hws _), bind_ok ih]; rfl
    · refine many_ok heats (r := ',' :: ' ' :: (printAttrs std (b :: as) ++ close :: r)) ?_ ih
      have : ∀ m, ws (chr ',') (',' :: ' ' :: m) = .ok () (' ' :: m) := fun m => by
        rw [ws_stop (stop_cons.2 (by decide))]; exact chr_ok _ _
      rw [bind_ok (this _), ws_skip (by decide), e]
      exact hws _

theorem attrList_print (std : Std) {close : Char} (hclose : close = ')' ∨ close = ']') (r : Text) {as : List Attribute}
    (hne : as ≠ [])
    (h : ∀ a ∈ as, AttrWf a ∧ ∀ r, AttrEnd r → parseAttr std (printAttr std a ++ r) = .ok a r) :
    attrList close (parseAttr std) (printAttrs std as ++ close :: r) = .ok as r := by
  unfold attrList
  rw [bind_ok (attrs_sep std hclose r as hne h).1]
  have h1 : opt (chr ',') (close :: r) = .ok none (close :: r) := by
    rcases hclose with rfl | rfl <;> exact opt_none (chr_back _ (by decide))
  have h2 : ws (chr close) (close :: r) = .ok () r := by
    rcases hclose with rfl | rfl <;> (rw [ws_stop (stop_cons.2 (by decide))]; exact chr_ok _ _)
  rw [bind_ok h1, bind_ok h2]; rfl

theorem segment_print {n : String} (h : SnakeName n) {r : Text} (hr : Stop isSegChar r) :
    parseSegment (n.toList ++ r) = .ok n r := name_print ((snakeName_iff n).1 h) hr

/-- Literals survive. -/
abbrev LitOk (std : Std) (l : Literal) : Prop := LiteralOk (FloatOk std.showFloat std.readFloat) l

mutual
theorem parseAttr_print (std : Std) : ∀ a : Attribute, AttrWf a → (∀ l ∈ attrLiterals a, LitOk std l) →
    ∀ r, AttrEnd r → parseAttr std (printAttr std a ++ r) = .ok a r
  | .unit n, h, _, r, hr => by
    rw [AttrWf] at h
    rw [parseAttr_eq]
    unfold attrBody
    show (parseSegment >>= _) (n.toList ++ r) = _
    rw [bind_ok (segment_print h (attrEnd_stop (by decide) hr))]
    obtain ⟨c, cs, rfl, hc⟩ := hr
    have h1 : c ≠ '(' := by rintro rfl; exact absurd hc (by decide)
    have h2 : c ≠ '=' := by rintro rfl; exact absurd hc (by decide)
    have h3 : isSpace c = false := by
      have : ∀ c ∈ [',', ')', ']'], isSpace c = false := by decide
      exact this c hc
    rw [alt_right (bind_back (chr_back _ h1))]
    have hb : attrSingle std n (c :: cs) = .back := by
      unfold attrSingle
      have h4 : space0 (c :: cs) = .ok [] (c :: cs) := takeWhile_stop (stop_cons.2 h3)
      rw [bind_ok h4]
      exact bind_back (chr_back _ h2)
    rw [alt_right hb]; rfl
  | .single n l, h, hl, r, hr => by
    rw [AttrWf] at h
    have hl := hl l (by simp [attrLiterals])
    have e : printAttr std (.single n l) ++ r = n.toList ++ (' ' :: '=' :: ' ' :: (printLiteral std l ++ r)) := by
      rw [printAttr]; simp
    rw [parseAttr_eq, e]
    unfold attrBody
    rw [bind_ok (segment_print h (stop_cons.2 (by decide))), alt_right (bind_back (chr_back _ (by decide)))]
    refine alt_left ?_
    unfold attrSingle
    have h1 : space0 (' ' :: '=' :: ' ' :: (printLiteral std l ++ r)) = .ok [' '] ('=' :: ' ' :: (printLiteral std l ++ r)) :=
      takeWhile_ok (w := [' ']) (by decide) (stop_cons.2 (by decide)) (by omega)
    have hs : Stop isSpace (printLiteral std l ++ r) := by
      have := literal_print std l hl (attrEnd_literal hr)
      intro c hc
      cases hp : printLiteral std l ++ r with
      | nil => rw [hp] at hc; cases hc
      | cons d ds =>
        rw [hp] at hc this
        cases hc
        by_cases hsp : isSpace c = true
        · exfalso
          simp only [isSpace, Bool.or_eq_true, beq_iff_eq] at hsp
          rcases hsp with rfl | rfl <;> cases this
        · simpa using hsp
    have h2 : space0 (' ' :: (printLiteral std l ++ r)) = .ok [' '] (printLiteral std l ++ r) :=
      takeWhile_ok (w := [' ']) (by decide) hs (by omega)
    rw [bind_ok h1, bind_ok (chr_ok _ _), bind_ok h2, bind_ok (literal_print std l hl (attrEnd_literal hr))]; rfl
  | .multi n [], h, _, _, _ => by rw [AttrWf] at h; exact absurd rfl h.2.1
  | .multi n (a :: as), h, hl, r, hr => by
    rw [AttrWf] at h
    rw [attrLiterals] at hl
    have ih := parseAttrs_print std (a :: as) h.2.2 hl
    have e : printAttr std (.multi n (a :: as)) ++ r = n.toList ++ ('(' :: (printAttrs std (a :: as) ++ ')' :: r)) := by
      rw [printAttr]
      · simp
      · simp
    rw [parseAttr_eq, e]
    unfold attrBody
    rw [bind_ok (segment_print h.1 (stop_cons.2 (by decide)))]
    refine alt_left ?_
    rw [bind_ok (chr_ok _ _), bind_ok (cutErr_ok.2 (attrList_print std (.inl rfl) r h.2.1 ih))]; rfl
theorem parseAttrs_print (std : Std) : ∀ as : List Attribute, AttrsWf as → (∀ l ∈ attrsLiterals as, LitOk std l) →
    ∀ a ∈ as, AttrWf a ∧ ∀ r, AttrEnd r → parseAttr std (printAttr std a ++ r) = .ok a r
  | [], _, _, _, h => by cases h
  | a :: as, h, hl, b, hb => by
    rw [AttrsWf] at h
    rw [attrsLiterals] at hl
    rcases List.mem_cons.1 hb with e | hb
    · rw [e]; exact ⟨h.1, parseAttr_print std a h.1 fun l hm => hl l (List.mem_append.2 (.inl hm))⟩
    · exact parseAttrs_print std as h.2 (fun l hm => hl l (List.mem_append.2 (.inr hm))) b hb
end

/-- Attributes after a comment; the indentation of what follows may or may not be consumed. -/
theorem ws_attributes (std : Std) {level : Nat} {as : List Attribute} (h : AttrsWf as)
    (hl : ∀ l ∈ attrsLiterals as, LitOk std l) {c : Char} {s ind w : Text} (hw : Blank w) (hi : Blank ind)
    (hc : Starts c) (hp : c ≠ '#') :
    ∃ ind', Blank ind' ∧ ws (parseAttributes std) (w ++ (printAttributes std level as ++ (ind ++ c :: s))) =
      .ok as (ind' ++ c :: s) := by
  have hback : ∀ ind, Blank ind → (do let as ← parseAttribute std; chr '\n'; pure as : P (List Attribute)) (ind ++ c :: s) = .back := by
    intro ind hi
    refine bind_back (bind_back ?_)
    cases ind with
    | nil => exact lit_back_of_head (c := '#') rfl hp
    | cons d ds =>
      refine lit_back_of_head (c := '#') rfl ?_
      rintro rfl
      exact absurd (hi '#' (by simp)) (by decide)
  cases as with
  | nil =>
    refine ⟨[], blank_nil, ?_⟩
    rw [ws_blank hw]
    show ws (parseAttributes std) (ind ++ c :: s) = _
    rw [ws_blank hi, ws_stop (stop_cons.2 hc.1)]
    unfold parseAttributes
    have h0 := many_back (hback [] blank_nil)
    rw [List.nil_append] at h0
    rw [bind_ok h0]; rfl
  | cons a as =>
    refine ⟨ind, hi, ?_⟩
    have e : printAttributes std level (a :: as) ++ (ind ++ c :: s) =
        indent level ++ ('#' :: '[' :: (printAttrs std (a :: as) ++ ']' :: '\n' :: (ind ++ c :: s))) := by
      simp [printAttributes]
    rw [ws_blank hw, e, ws_blank (blank_indent _), ws_stop (stop_cons.2 (by decide))]
    have h1 : parseAttribute std ('#' :: '[' :: (printAttrs std (a :: as) ++ ']' :: '\n' :: (ind ++ c :: s))) =
        .ok (a :: as) ('\n' :: (ind ++ c :: s)) := by
      unfold parseAttribute
      have h0 : ∀ m, lit "#" ('#' :: m) = .ok () m := lit_ok "#"
      rw [bind_ok (h0 _), bind_ok (chr_ok _ _), cutErr_ok]
      exact attrList_print std (.inr rfl) _ (by simp) (parseAttrs_print std _ h hl)
    have h2 : (do let as ← parseAttribute std; chr '\n'; pure as : P (List Attribute))
        ('#' :: '[' :: (printAttrs std (a :: as) ++ ']' :: '\n' :: (ind ++ c :: s))) = .ok (a :: as) (ind ++ c :: s) := by
      rw [bind_ok h1, bind_ok (chr_ok _ _)]; rfl
    unfold parseAttributes
    rw [bind_ok (many_ok (eats_attrLine std) h2 (many_back (hback ind hi)))]
    show Res.ok [a :: as].flatten _ = _
    simp

end Mabo.Parse
