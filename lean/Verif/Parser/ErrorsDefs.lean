import Verif.Parser.ErrorsTypes
/-! What the errors of fields, definitions and schemas say. -/
namespace Mabo.Failing
open Mabo.Parse (Text Res P Std isSpace isMulti isLower isUpper isDigit isAlnum)
open Mabo.Ast Mabo.Spec.Errors

/-! ### Comments and ids -/

theorem commentLine_soft {s r : Text} {b : Bool} {e : Text} (h : commentLine s = .fail b e r) : b = false := by
  rcases bind_fail h with h | ⟨_, _, _, h⟩
  · exact (takeWhile_fail h).1
  rcases bind_fail h with h | ⟨_, _, _, h⟩
  · exact (lit_fail h).1
  rcases bind_fail h with h | ⟨_, _, _, h⟩
  · exact (takeWhile_fail h).1
  rcases bind_fail h with h | ⟨_, _, _, h⟩
  · exact (takeWhile_fail h).1
  rcases bind_fail h with h | ⟨_, _, _, h⟩
  · exact (chr_fail h).1
  · cases h

theorem suf_commentLine : Lsp.Suf Parse.commentLine :=
  Lsp.suf_bind (Lsp.suf_takeWhile _ _) fun _ => Lsp.suf_bind (Lsp.suf_lit _) fun _ => Lsp.suf_bind (Lsp.suf_takeWhile _ _) fun _ =>
    Lsp.suf_bind (Lsp.suf_takeWhile _ _) fun _ => Lsp.suf_bind (Lsp.suf_chr _) fun _ => Lsp.suf_pure _

/-- Comments cannot be wrong. -/
theorem parseComments_ok {s r : Text} {b : Bool} {e : CommentError} (h : parseComments s = .fail b e r) : False := by
  obtain ⟨_, h0, _⟩ := mapErrAt_fail h
  obtain ⟨rfl, s', _, h1⟩ := many_fail (eats_sim sim_commentLine Parse.eats_commentLine) (suf_sim sim_commentLine suf_commentLine) h0
  cases commentLine_soft h1

theorem suf_parseComments : Suf parseComments := suf_sim sim_parseComments Lsp.suf_parseComments

theorem wsComments_ok {E : Type} [FromInput E] {f : CommentError → E} {s r : Text} {b : Bool} {e : E}
    (h : ws (mapErr f parseComments) s = .fail b e r) : False := by
  rw [ws_run] at h
  obtain ⟨_, h, _⟩ := mapErr_fail h
  exact parseComments_ok h

theorem suf_wsComments {E : Type} [FromInput E] {f : CommentError → E} : Suf (ws (mapErr f parseComments)) :=
  suf_sim (sim_ws (sim_mapErr sim_parseComments)) (Lsp.suf_ws Lsp.suf_parseComments)

/-- Ids cannot be wrong: what is not an id is not there. -/
theorem optId_ok {E : Type} [FromInput E] {f : IdError → E} {s r : Text} {b : Bool} {e : E}
    (h : opt (sp (mapErr f parseId)) s = .fail b e r) : False := by
  obtain ⟨_, h⟩ := opt_fail h
  rw [sp_run] at h
  obtain ⟨_, h, _⟩ := mapErr_fail h
  obtain ⟨_, h, _⟩ := mapErrAt_fail h
  rcases bind_fail h with h | ⟨_, _, _, h⟩
  · cases (chr_fail h).1
  rcases bind_fail h with h | ⟨_, _, _, h⟩
  · cases (decUint_fail h).1
  · cases h

/-! ### White space -/

theorem blank_append {a b : Text} (ha : Blank a) (hb : Blank b) : Blank (a ++ b) := by
  induction ha with
  | nil => exact hb
  | space h _ ih => exact .space h ih
  | comment h _ ih =>
    rw [List.append_assoc, List.cons_append]
    exact .comment h ih

theorem blank_multi {a : Text} (h : ∀ c ∈ a, isMulti c = true) : Blank a := by
  induction a with
  | nil => exact .nil
  | cons c a ih => exact .space (h c (List.mem_cons_self ..)) (ih fun d hd => h d (List.mem_cons_of_mem _ hd))

theorem blank_space {a : Text} (h : ∀ c ∈ a, isSpace c = true) : Blank a := blank_multi fun c hc => space_multi (h c hc)

theorem blank_commentLine {s r : Text} {l : String} (h : Parse.commentLine s = .ok l r) : ∃ b, s = b ++ r ∧ Blank b := by
  obtain ⟨w1, m1, h1, h⟩ := Parse.bind_eq_ok h
  obtain ⟨_, m2, h2, h⟩ := Parse.bind_eq_ok h
  obtain ⟨w3, m3, h3, h⟩ := Parse.bind_eq_ok h
  obtain ⟨w4, m4, h4, h⟩ := Parse.bind_eq_ok h
  obtain ⟨_, m5, h5, h⟩ := Parse.bind_eq_ok h
  obtain ⟨e1, a1, _⟩ := Parse.takeWhile_eq_ok h1
  have e2 := Parse.lit_eq_ok h2
  obtain ⟨e3, a3, _⟩ := Parse.takeWhile_eq_ok h3
  obtain ⟨e4, a4, _⟩ := Parse.takeWhile_eq_ok h4
  have e5 := Parse.chr_eq_ok h5
  have e6 := (Parse.pure_eq_ok h).2
  refine ⟨w1 ++ ("///".toList ++ (w3 ++ w4) ++ '\n' :: []), ?_, blank_append (blank_space a1) (.comment ?_ .nil)⟩
  · rw [e1, e2, e3, e4, e5, e6]
    simp only [List.append_assoc, List.cons_append, List.nil_append]
  · intro hm
    rcases List.mem_append.1 hm with hm | hm
    · exact absurd (a3 _ hm) (by decide)
    · exact absurd (a4 _ hm) (by decide)

theorem blank_manyAux : ∀ {n : Nat} {s r : Text} {ls : List String}, Parse.manyAux Parse.commentLine n s = .ok ls r →
    ∃ b, s = b ++ r ∧ Blank b
  | 0, _, _, _, h => by cases h
  | n + 1, s, r, ls, h => by
    rw [Parse.manyAux] at h
    cases hp : Parse.commentLine s with
    | back => rw [hp] at h; cases h; exact ⟨[], rfl, .nil⟩
    | cut => rw [hp] at h; cases h
    | ok a m =>
      rw [hp] at h
      obtain ⟨b, rfl, hb⟩ := blank_commentLine hp
      by_cases hl : m.length = (b ++ m).length
      · simp only [if_pos hl] at h; cases h
      · simp only [if_neg hl] at h
        cases h1 : Parse.manyAux Parse.commentLine n m with
        | ok as r' =>
          rw [h1] at h; cases h
          obtain ⟨b', rfl, hb'⟩ := blank_manyAux h1
          exact ⟨b ++ b', (List.append_assoc ..).symm, blank_append hb hb'⟩
        | back => rw [h1] at h; cases h
        | cut => rw [h1] at h; cases h

theorem drop_eq (f : Char → Bool) (s : Text) : ∃ w, s = w ++ s.dropWhile f ∧ ∀ c ∈ w, f c = true :=
  ⟨s.takeWhile f, (List.takeWhile_append_dropWhile ..).symm, fun c hc => by
    have h : Parse.takeWhile 0 f s = .ok (s.takeWhile f) (s.dropWhile f) := by rw [Parse.takeWhile, if_neg (by omega)]
    exact (Parse.takeWhile_eq_ok h).2.1 c hc⟩

theorem blank_wsComments {E : Type} [FromInput E] {f : CommentError → E} {s r : Text} {ls : List String}
    (h : ws (mapErr f parseComments) s = .ok ls r) : ∃ b, s = b ++ r ∧ Blank b := by
  have h := sim_ok (sim_ws (sim_mapErr sim_parseComments)) h
  rw [Parse.ws_run] at h
  obtain ⟨b, h1, h2⟩ := blank_manyAux h
  obtain ⟨w, h3, h4⟩ := drop_eq isMulti s
  exact ⟨w ++ b, by rw [List.append_assoc, ← h1, ← h3], blank_append (blank_multi h4) h2⟩

/-! ### Fields -/

/-- The errors of a field. -/
def FieldErr (std : Std) (s : Text) (b : Bool) (e : FieldsCause) : Prop :=
  (∃ v, v <:+ s ∧ e = .parser v) ∨
  (b = false ∧ ∃ x v, s = x ++ v ∧ Blank x ∧ NotAt isLower v ∧ e = .invalidName v) ∨
  ∃ a c, e = .type a c ∧ Says std s (fun text => typeReport text c)

theorem fieldErr_up {std : Std} {s s' : Text} {e : FieldsCause} (h : s' <:+ s) (he : FieldErr std s' true e) : FieldErr std s true e := by
  rcases he with ⟨v, h1, h2⟩ | ⟨h1, _⟩ | ⟨a, c, h1, h2⟩
  · exact .inl ⟨v, h1.trans h, h2⟩
  · cases h1
  · exact .inr (.inr ⟨a, c, h1, says_up h h2⟩)

/-- A type behind a character and blanks. -/
theorem behind_char {std : Std} {E : Type} [FromInput E] {k : Char} {s m m' r : Text} {b : Bool} {e : At × TypeCause}
    (h : (sp (chr k) : F E Unit) m = .ok () m') (hs : m <:+ s) (hk : k ∈ [':', '=', '(', ','])
    (h1 : parseType (m'.dropWhile isSpace) = .fail b e r) : Says std s (fun text => typeReport text e.2) := by
  rw [sp_run] at h
  have e1 := Parse.chr_eq_ok (sim_ok (sim_chr _) h)
  obtain ⟨w, e2, e3⟩ := drop_eq isSpace m'
  have := parseType_says std (y := k :: w) ⟨[], k, w, rfl, hk, fun d hd => space_multi (e3 d hd)⟩ h1
  rw [List.cons_append, ← e2, ← e1] at this
  exact says_up ((suf_ws_drop _ _).trans hs) this

theorem parseNamedField_err (std : Std) {s r : Text} {b : Bool} {e : FieldsCause} (h : parseNamedField s = .fail b e r) :
    FieldErr std s b e := by
  rcases bind_fail h with h | ⟨_, m1, h1, h⟩
  · exact absurd h fun h => wsComments_ok h
  obtain ⟨x1, hx, hb⟩ := blank_wsComments h1
  have s1 : m1 <:+ s := hx ▸ List.suffix_append _ _
  rcases bind_fail h with h | ⟨_, m2, h2, h⟩
  · rw [sp_run] at h
    obtain ⟨h3, h4, _, h5⟩ := nameOr_fail h
    obtain ⟨w, hw, hw'⟩ := drop_eq isSpace m1
    refine .inr (.inl ⟨h3, x1 ++ w, m1.dropWhile isSpace, ?_, blank_append hb (blank_space hw'), h5, h4⟩)
    rw [List.append_assoc, ← hw, hx]
  have s2 : m2 <:+ s := (suf_sp (suf_sim (sim_nameOr _ _ _) (Lsp.suf_name _ _)) _ _ _ h2).trans s1
  rcases bind_fail h with h | ⟨_, m3, h3, h⟩
  · rw [sp_run] at h
    exact .inl ⟨_, (suf_ws_drop m2 _).trans s2, (chr_fail h).2.1⟩
  have s3 : m3 <:+ s := (suf_sp (suf_chr _) _ _ _ h3).trans s2
  rcases bind_fail h with h | ⟨_, m4, h4, h⟩
  · rw [sp_run] at h
    obtain ⟨e', h5, rfl⟩ := mapErr_fail h
    exact .inr (.inr ⟨_, _, rfl, behind_char h3 s2 (by decide) h5⟩)
  rcases bind_fail h with h | ⟨_, _, _, h⟩
  · exact absurd h fun h => optId_ok h
  · cases h

theorem parseUnnamedField_err (std : Std) {k : Char} {s r : Text} {b : Bool} {e : FieldsCause} (hk : k ∈ [':', '=', '(', ','])
    (h : parseUnnamedField s = .fail b e r) : ∃ a c, e = .type a c ∧ Says std (k :: s) (fun text => typeReport text c) := by
  rcases bind_fail h with h | ⟨_, m1, h1, h⟩
  · rw [ws_run] at h
    obtain ⟨e', h5, rfl⟩ := mapErr_fail h
    obtain ⟨w, e2, e3⟩ := drop_eq isMulti s
    have := parseType_says std (y := k :: w) ⟨[], k, w, rfl, hk, e3⟩ h5
    rw [List.cons_append, ← e2] at this
    exact ⟨_, _, rfl, this⟩
  rcases bind_fail h with h | ⟨_, _, _, h⟩
  · exact absurd h fun h => optId_ok h
  · cases h

theorem suf_parseNamedField : Suf parseNamedField := suf_sim sim_parseNamedField Lsp.suf_parseNamedField
theorem suf_parseUnnamedField : Suf parseUnnamedField := suf_sim sim_parseUnnamedField Lsp.suf_parseUnnamedField
theorem suf_parseFields : Suf parseFields := suf_sim sim_parseFields Lsp.suf_parseFields

/-- Errors of fields. -/
theorem parseFields_says (std : Std) {s r : Text} {b : Bool} {e : At × FieldsCause} (h : parseFields s = .fail b e r) :
    Says std s (fun text => fieldsReport text e.2) := by
  have hu := unreadable_sim sim_parseFields h
  obtain ⟨c, h0, rfl⟩ := mapErrAt_fail h
  show Says std s (fun text => fieldsReport text c)
  have hparser : (s = [] ∨ s.head? = some '{' ∨ s.head? = some '(') → ∀ v, v <:+ s → c = .parser v →
      Says std s (fun text => fieldsReport text c) := fun hh v ⟨x, hx⟩ hc => by
    subst hx hc
    exact says_intro (fun _ => by rw [fieldsReport]) fun w => .fields (broken_intro hh hu)
  have htype : ∀ {s'}, s' <:+ s → (∃ a t, c = .type a t ∧ Says std s' (fun text => typeReport text t)) →
      Says std s (fun text => fieldsReport text c) := fun hs ⟨a, t, hc, ht⟩ => by
    subst hc
    simp only [fieldsReport]
    exact says_up hs ht
  rcases bind_fail h0 with h1 | ⟨d, m, h1, h2⟩
  · exact hparser (.inl (peekAny_fail h1).2.2.2) s (List.suffix_refl _) (peekAny_fail h1).2.1
  have hp : s.head? = some d ∧ m = s := by
    cases s with
    | nil => cases h1
    | cons x s => cases h1; exact ⟨rfl, rfl⟩
  rw [hp.2] at h2
  rcases ite_fail h2 with ⟨hd, h2⟩ | ⟨_, h2⟩
  · rcases bind_fail h2 with h2 | ⟨_, _, _, h2⟩
    · rcases surround_fail h2 with ⟨_, h3, _⟩ | ⟨_, s', hs', ⟨b', h3⟩ | ⟨a, m', h3, h4, h5, _⟩⟩
      · exact hparser (.inr (.inl (hd ▸ hp.1))) s (List.suffix_refl _) h3
      · have hsuf : s' <:+ s := hs' ▸ List.suffix_cons _ _
        have : FieldErr std s' b' c := by
          rcases commaList_fail (eats_sim sim_parseNamedField Parse.eats_parseNamedField) suf_parseNamedField h3 with h3 | ⟨hb, s2, h4, _, h3⟩
          · exact parseNamedField_err std h3
          · rw [hb]; exact fieldErr_up h4 (parseNamedField_err std h3)
        rcases this with ⟨v, h4, h5⟩ | ⟨_, x, v, hx, hb, hn, h5⟩ | h4
        · exact hparser (.inr (.inl (hd ▸ hp.1))) v (h4.trans hsuf) h5
        · subst h5
          rw [hs', hx, ← List.cons_append]
          exact says_intro (fun _ => by rw [fieldsReport]) fun w => .fieldName hb hn
        · exact htype hsuf h4
      · have hsuf : s' <:+ s := hs' ▸ List.suffix_cons _ _
        exact hparser (.inr (.inl (hd ▸ hp.1))) _ ((suf_ws_drop _ _).trans ((suf_sim (sim_commaList sim_parseNamedField)
          (Lsp.suf_commaList Lsp.suf_parseNamedField) _ _ _ h3).trans hsuf)) h4
    · cases h2
  rcases ite_fail h2 with ⟨hd, h2⟩ | ⟨_, h2⟩
  · rcases bind_fail h2 with h2 | ⟨_, _, _, h2⟩
    · rcases surround_fail h2 with ⟨_, h3, _⟩ | ⟨_, s', hs', ⟨b', h3⟩ | ⟨a, m', h3, h4, h5, _⟩⟩
      · exact hparser (.inr (.inr (hd ▸ hp.1))) s (List.suffix_refl _) h3
      · have hsuf : s' <:+ s := hs' ▸ List.suffix_cons _ _
        rcases commaList_fail (eats_sim sim_parseUnnamedField Parse.eats_parseUnnamedField) suf_parseUnnamedField h3 with
          h3 | ⟨hb, s2, h4, h5 | ⟨y, h5⟩, h3⟩
        · exact htype (hs' ▸ List.suffix_refl _) (parseUnnamedField_err std (k := '(') (by decide) h3)
        · exact htype (hs' ▸ h5 ▸ List.suffix_refl _) (parseUnnamedField_err std (k := '(') (by decide) h3)
        · exact htype (.trans ⟨y, h5.symm⟩ hsuf) (parseUnnamedField_err std (k := ',') (by decide) h3)
      · have hsuf : s' <:+ s := hs' ▸ List.suffix_cons _ _
        exact hparser (.inr (.inr (hd ▸ hp.1))) _ ((suf_ws_drop _ _).trans ((suf_sim (sim_commaList sim_parseUnnamedField)
          (Lsp.suf_commaList Lsp.suf_parseUnnamedField) _ _ _ h3).trans hsuf)) h4
    · cases h2
  · cases h2

/-! ### Type parameters -/

/-- Errors of type parameters: there is an angle bracket. -/
theorem parseGenerics_says (std : Std) {E : Type} {f : At × GenericsCause → E} {s r : Text} {b : Bool} {e : E}
    (h : parseGenerics f s = .fail b e r) : ∃ a c, e = f (a, c) ∧ Says std s (fun _ => genericsReport c) := by
  have hu := unreadable_sim (sim_parseGenerics f) h
  rcases bind_fail h with h | ⟨_, _, _, h⟩
  · obtain ⟨_, h⟩ := opt_fail h
    obtain ⟨_, h, he⟩ := mapErr_fail h
    obtain ⟨c, h, he'⟩ := mapErrAt_fail h
    refine ⟨_, c, by rw [he, he'], ?_⟩
    rcases surround_fail h with ⟨h1, _⟩ | ⟨_, s', hs', ⟨b', h3⟩ | ⟨a, m', h3, h4, h5, _⟩⟩
    · cases h1
    · have hsim : Sim (ws (nameOr GenericsCause.invalidName isUpper isAlnum)) (Parse.ws Parse.parseCamel) := sim_ws (sim_nameOr _ _ _)
      rcases commaList_fail (eats_sim hsim (Parse.eats_ws (Parse.eats_name _ _)))
        (suf_sim hsim (Lsp.suf_ws (Lsp.suf_name _ _))) h3 with h3 | ⟨hb, s2, h4, _, h3⟩
      · rw [ws_run] at h3
        obtain ⟨_, h4, _, h5⟩ := nameOr_fail h3
        obtain ⟨w, hw, hw'⟩ := drop_eq isMulti s'
        subst h4
        rw [hs', hw, ← List.cons_append]
        rw [← hw]
        exact says_intro (fun _ => rfl) fun w => .parameterName hw' h5
      · rw [ws_run] at h3
        cases (nameOr_fail h3).1
    · have hsuf : s' <:+ s := hs' ▸ List.suffix_cons _ _
      have hhead : s.head? = some '<' := by rw [hs']; rfl
      subst h4
      obtain ⟨x, hx⟩ : m'.dropWhile isMulti <:+ s := (suf_ws_drop _ _).trans ((suf_sim (sim_commaList (sim_ws (sim_nameOr _ _ _)))
        (Lsp.suf_commaList (Lsp.suf_ws (Lsp.suf_name _ _))) _ _ _ h3).trans hsuf)
      rw [← hx] at hu hhead ⊢
      exact says_intro (fun _ => rfl) fun w => .generics (broken_intro hhead hu)
  · cases h

/-! ### Declarations -/

section
variable {E α : Type} [FromInput E]

/-- A final error of a declaration: there are the keyword and blanks, and the error is behind them. -/
theorem keyword_fail {w : String} {p : F E α} {s r : Text} {e : E}
    (h : (do lit w; let _ ← space1; cutErr p : F E α) s = .fail true e r) :
    ∃ x blanks m, s = x ++ m ∧ x = w.toList ++ blanks ∧ blanks ≠ [] ∧ (∀ c ∈ blanks, isSpace c = true) ∧ ∃ b, p m = .fail b e r := by
  rcases bind_fail h with h | ⟨_, m1, h1, h⟩
  · cases (lit_fail h).1
  rcases bind_fail h with h | ⟨blanks, m2, h2, h⟩
  · cases (takeWhile_fail h).1
  obtain ⟨_, b, h⟩ := cutErr_fail h
  have e1 := Parse.lit_eq_ok (sim_ok (sim_lit _) h1)
  obtain ⟨e2, h3, _, h4⟩ := Parse.takeWhile_eq_ok (sim_ok (sim_takeWhile _ _) h2)
  refine ⟨w.toList ++ blanks, blanks, m2, by rw [e1, e2, List.append_assoc], rfl, ?_, h3, b, h⟩
  intro hb
  rw [hb] at h4
  cases h4

end

theorem opens_of {w : String} {s x blanks m : Text} (hs : s = x ++ m) (hx : x = w.toList ++ blanks) (hb : blanks ≠ [])
    (hc : ∀ c ∈ blanks, isSpace c = true) : Opens w s := by
  cases blanks with
  | nil => exact absurd rfl hb
  | cons c bs => exact ⟨c, bs ++ m, by rw [hs, hx, List.append_assoc, List.cons_append], hc c (List.mem_cons_self ..)⟩

theorem behind_of {w : String} {x blanks : Text} (hx : x = w.toList ++ blanks) (hb : blanks ≠ [])
    (hc : ∀ c ∈ blanks, isSpace c = true) (u : Text) : Behind w (u ++ x) :=
  ⟨u, blanks, by rw [hx, List.append_assoc], hb, hc⟩

theorem parseStruct_says (std : Std) {s r : Text} {e : At × StructCause} (h : parseStruct s = .fail true e r) :
    Says std s (fun text => structReport text e.2) := by
  obtain ⟨c, h0, rfl⟩ := mapErrAt_fail h
  show Says std s (fun text => structReport text c)
  obtain ⟨x, blanks, m, hs, hx, hb, hc, b, h1⟩ := keyword_fail h0
  have s0 : m <:+ s := hs ▸ List.suffix_append _ _
  rcases bind_fail h1 with h1 | ⟨_, m1, h2, h1⟩
  · obtain ⟨_, h3, _, h4⟩ := nameOr_fail h1
    subst h3 hs
    exact says_intro (fun _ => by rw [structReport, structCauseReport]; intro _ h; cases h) fun w => .structName (behind_of hx hb hc w) h4
  have s1 := (suf_sim (sim_nameOr _ _ _) (Lsp.suf_name _ _) _ _ _ h2).trans s0
  rcases bind_fail h1 with h1 | ⟨_, m2, h3, h1⟩
  · obtain ⟨a, c', h4, h5⟩ := parseGenerics_says std h1
    subst h4
    have := says_up s1 h5
    intro w
    obtain ⟨u, h6⟩ := this w
    exact ⟨u, by simpa only [structReport, structCauseReport] using h6⟩
  have s2 := (suf_sim (sim_parseGenerics _) Lsp.suf_parseGenerics _ _ _ h3).trans s1
  rcases bind_fail h1 with h1 | ⟨_, _, _, h1⟩
  · rw [sp_run] at h1
    obtain ⟨e', h4, h5⟩ := mapErr_fail h1
    subst h5
    have := says_up ((suf_ws_drop _ _).trans s2) (parseFields_says std h4)
    intro w
    obtain ⟨u, h6⟩ := this w
    exact ⟨u, by simpa only [structReport, structCauseReport] using h6⟩
  · cases h1

/-- The errors of a variant. -/
def VariantErr (std : Std) (s : Text) (b : Bool) (e : EnumCause) : Prop :=
  (b = false ∧ ∃ x v, s = x ++ v ∧ Blank x ∧ NotAt isUpper v ∧ e = .invalidVariantName v) ∨
  ∃ a c, e = .field a c ∧ Says std s (fun text => fieldsReport text c)

theorem parseVariant_err (std : Std) {s r : Text} {b : Bool} {e : EnumCause} (h : parseVariant s = .fail b e r) :
    VariantErr std s b e := by
  rcases bind_fail h with h | ⟨_, m1, h1, h⟩
  · exact absurd h fun h => wsComments_ok h
  obtain ⟨x1, hx, hb⟩ := blank_wsComments h1
  have s1 : m1 <:+ s := hx ▸ List.suffix_append _ _
  rcases bind_fail h with h | ⟨_, m2, h2, h⟩
  · rw [sp_run] at h
    obtain ⟨h3, h4, _, h5⟩ := nameOr_fail h
    obtain ⟨w, hw, hw'⟩ := drop_eq isSpace m1
    refine .inl ⟨h3, x1 ++ w, m1.dropWhile isSpace, ?_, blank_append hb (blank_space hw'), h5, h4⟩
    rw [List.append_assoc, ← hw, hx]
  have s2 : m2 <:+ s := (suf_sp (suf_sim (sim_nameOr _ _ _) (Lsp.suf_name _ _)) _ _ _ h2).trans s1
  rcases bind_fail h with h | ⟨_, m4, h4, h⟩
  · rw [sp_run] at h
    obtain ⟨e', h5, rfl⟩ := mapErr_fail h
    exact .inr ⟨_, _, rfl, says_up ((suf_ws_drop m2 _).trans s2) (parseFields_says std h5)⟩
  rcases bind_fail h with h | ⟨_, _, _, h⟩
  · exact absurd h fun h => optId_ok h
  · cases h

theorem parseEnum_says (std : Std) {s r : Text} {e : At × EnumCause} (h : parseEnum s = .fail true e r) :
    Says std s (fun text => enumReport text e.2) := by
  have hu := unreadable_sim sim_parseEnum h
  obtain ⟨c, h0, rfl⟩ := mapErrAt_fail h
  show Says std s (fun text => enumReport text c)
  obtain ⟨x, blanks, m, hs, hx, hb, hc, b, h1⟩ := keyword_fail h0
  have ho := opens_of hs hx hb hc
  have s0 : m <:+ s := hs ▸ List.suffix_append _ _
  have hparser : ∀ v, v <:+ s → c = .parser v → Says std s (fun text => enumReport text c) := fun v ⟨x, hx⟩ hc => by
    subst hx hc
    exact says_intro (fun _ => by rw [enumReport]) fun w => .enum (broken_intro ho hu)
  rcases bind_fail h1 with h1 | ⟨_, m1, h2, h1⟩
  · obtain ⟨_, h3, _, h4⟩ := nameOr_fail h1
    subst h3 hs
    exact says_intro (fun _ => by rw [enumReport, enumCauseReport]; intro _ h; cases h) fun w => .enumName (behind_of hx hb hc w) h4
  have s1 := (suf_sim (sim_nameOr _ _ _) (Lsp.suf_name _ _) _ _ _ h2).trans s0
  rcases bind_fail h1 with h1 | ⟨_, m2, h3, h1⟩
  · obtain ⟨a, c', h4, h5⟩ := parseGenerics_says std h1
    subst h4
    have := says_up s1 h5
    intro w
    obtain ⟨u, h6⟩ := this w
    exact ⟨u, by simpa only [enumReport, enumCauseReport] using h6⟩
  have s2 := (suf_sim (sim_parseGenerics _) Lsp.suf_parseGenerics _ _ _ h3).trans s1
  rcases bind_fail h1 with h1 | ⟨_, _, _, h1⟩
  · rw [sp_run] at h1
    have s3 := (suf_ws_drop _ isSpace).trans s2
    rcases surround_fail h1 with ⟨_, h3, _⟩ | ⟨_, s', hs', ⟨b', h3⟩ | ⟨a, m', h3, h4, h5, _⟩⟩
    · exact hparser _ s3 h3
    · have hsuf : s' <:+ s := (hs' ▸ List.suffix_cons '{' s' : s' <:+ m2.dropWhile isSpace).trans s3
      rcases commaList_fail (eats_sim sim_parseVariant Parse.eats_parseVariant) (suf_sim sim_parseVariant Lsp.suf_parseVariant) h3 with
        h3 | ⟨hb, v2, h4, _, h3⟩
      · rcases parseVariant_err std h3 with ⟨_, x', v, hx', hbl, hn, h6⟩ | ⟨a, t, h6, h7⟩
        · subst h6
          refine says_up s3 ?_
          rw [hs', hx', ← List.cons_append]
          exact says_intro (fun _ => by rw [enumReport, enumCauseReport]; intro _ h; cases h) fun w => .variantName hbl hn
        · subst h6
          have := says_up hsuf h7
          intro w
          obtain ⟨u, h6⟩ := this w
          exact ⟨u, by simpa only [enumReport, enumCauseReport] using h6⟩
      · rcases parseVariant_err std h3 with ⟨hb, _⟩ | ⟨a, t, h6, h7⟩
        · cases hb
        · subst h6
          have := says_up (h4.trans hsuf) h7
          intro w
          obtain ⟨u, h6⟩ := this w
          exact ⟨u, by simpa only [enumReport, enumCauseReport] using h6⟩
    · have hsuf : s' <:+ s := (hs' ▸ List.suffix_cons '{' s' : s' <:+ m2.dropWhile isSpace).trans s3
      exact hparser _ ((suf_ws_drop _ _).trans ((suf_sim (sim_commaList sim_parseVariant)
          (Lsp.suf_commaList Lsp.suf_parseVariant) _ _ _ h3).trans hsuf)) h4
  · cases h1

theorem parseAlias_says (std : Std) {s r : Text} {e : At × AliasCause} (h : parseAlias s = .fail true e r) :
    Says std s (fun text => aliasReport text e.2) := by
  have hu := unreadable_sim sim_parseAlias h
  obtain ⟨c, h0, rfl⟩ := mapErrAt_fail h
  show Says std s (fun text => aliasReport text c)
  obtain ⟨x, blanks, m, hs, hx, hb, hc, b, h1⟩ := keyword_fail h0
  have ho := opens_of hs hx hb hc
  have s0 : m <:+ s := hs ▸ List.suffix_append _ _
  have hparser : ∀ v, v <:+ s → c = .parser v → Says std s (fun text => aliasReport text c) := fun v ⟨x, hx⟩ hc => by
    subst hx hc
    exact says_intro (fun _ => rfl) fun w => .alias (broken_intro ho hu)
  rcases bind_fail h1 with h1 | ⟨_, m1, h2, h1⟩
  · obtain ⟨_, h3, _, h4⟩ := nameOr_fail h1
    subst h3 hs
    exact says_intro (fun _ => rfl) fun w => .aliasName (behind_of hx hb hc w) h4
  have s1 := (suf_sim (sim_nameOr _ _ _) (Lsp.suf_name _ _) _ _ _ h2).trans s0
  rcases bind_fail h1 with h1 | ⟨_, m2, h3, h1⟩
  · obtain ⟨a, c', h4, h5⟩ := parseGenerics_says std h1
    subst h4
    exact says_up s1 h5
  have s2 := (suf_sim (sim_parseGenerics _) Lsp.suf_parseGenerics _ _ _ h3).trans s1
  rcases bind_fail h1 with h1 | ⟨_, m3, hq, h1⟩
  · rw [sp_run] at h1
    exact hparser _ ((suf_ws_drop _ _).trans s2) (chr_fail h1).2.1
  have s3 := (suf_sp (suf_chr _) _ _ _ hq).trans s2
  rcases bind_fail h1 with h1 | ⟨_, m4, h5, h1⟩
  · rw [sp_run] at h1
    obtain ⟨e', h4, h5⟩ := mapErr_fail h1
    subst h5
    exact behind_char hq s2 (by decide) h4
  have s4 := (suf_sp (suf_sim (sim_mapErr sim_parseType) Lsp.suf_parseType) _ _ _ h5).trans s3
  rcases bind_fail h1 with h1 | ⟨_, _, _, h1⟩
  · rw [sp_run] at h1
    exact hparser _ ((suf_ws_drop _ _).trans s4) (chr_fail h1).2.1
  · cases h1

theorem parseConst_says (std : Std) {s r : Text} {e : At × ConstCause} (h : parseConst std s = .fail true e r) :
    Says std s (fun text => constReport text e.2) := by
  have hu := unreadable_sim (sim_parseConst std) h
  obtain ⟨c, h0, rfl⟩ := mapErrAt_fail h
  show Says std s (fun text => constReport text c)
  obtain ⟨x, blanks, m, hs, hx, hb, hc, b, h1⟩ := keyword_fail h0
  have ho := opens_of hs hx hb hc
  have s0 : m <:+ s := hs ▸ List.suffix_append _ _
  have hparser : ∀ v, v <:+ s → c = .parser v → Says std s (fun text => constReport text c) := fun v ⟨x, hx⟩ hc => by
    subst hx hc
    exact says_intro (fun _ => rfl) fun w => .const (broken_intro ho hu)
  rcases bind_fail h1 with h1 | ⟨_, m1, h2, h1⟩
  · obtain ⟨_, h3, _, h4⟩ := nameOr_fail h1
    subst h3 hs
    exact says_intro (fun _ => rfl) fun w => .constName (behind_of hx hb hc w) h4
  have s1 := (suf_sim (sim_nameOr _ _ _) (Lsp.suf_name _ _) _ _ _ h2).trans s0
  rcases bind_fail h1 with h1 | ⟨_, m2, h3, h1⟩
  · exact hparser _ s1 (chr_fail h1).2.1
  have s2 := (suf_chr _ _ _ _ h3).trans s1
  rcases bind_fail h1 with h1 | ⟨_, m3, h4, h1⟩
  · rw [sp_run] at h1
    obtain ⟨e', h4, h5⟩ := mapErr_fail h1
    subst h5
    have e1 := Parse.chr_eq_ok (sim_ok (sim_chr _) h3)
    obtain ⟨w, e2, e3⟩ := drop_eq isSpace m2
    have := parseType_says std (y := ':' :: w) ⟨[], ':', w, rfl, by decide, fun d hd => space_multi (e3 d hd)⟩ h4
    rw [List.cons_append, ← e2, ← e1] at this
    exact says_up s1 this
  have s3 := (suf_sp (suf_sim (sim_mapErr sim_parseType) Lsp.suf_parseType) _ _ _ h4).trans s2
  rcases bind_fail h1 with h1 | ⟨_, m4, h5, h1⟩
  · rw [sp_run] at h1
    exact hparser _ ((suf_ws_drop _ _).trans s3) (chr_fail h1).2.1
  have s4 := (suf_sp (suf_chr _) _ _ _ h5).trans s3
  rcases bind_fail h1 with h1 | ⟨_, m5, h6, h1⟩
  · rw [sp_run] at h1 h5
    obtain ⟨e', h7, h8⟩ := mapErr_fail h1
    subst h8
    have e1 := Parse.chr_eq_ok (sim_ok (sim_chr _) h5)
    obtain ⟨w, e2, e3⟩ := drop_eq isSpace m4
    have := parseLiteral_says std (y := '=' :: w) ⟨[], '=', w, rfl, by decide, fun d hd => space_multi (e3 d hd)⟩ h7
    rw [List.cons_append, ← e2, ← e1] at this
    exact says_up ((suf_ws_drop _ _).trans s3) this
  have s5 := (suf_sp (suf_sim (sim_mapErr (sim_parseLiteral std)) (Lsp.suf_parseLiteral std)) _ _ _ h6).trans s4
  rcases bind_fail h1 with h1 | ⟨_, _, _, h1⟩
  · obtain ⟨_, h7, h8⟩ := mapErrAt_fail h1
    obtain ⟨_, _, h9, h10⟩ := chr_fail h7
    subst h9 h8
    obtain ⟨x', hx'⟩ := s5
    subst hx'
    exact says_intro (fun _ => rfl) fun w => .semicolon (broken_intro ho hu) fun d hd => by simpa using h10 d hd
  · cases h1

theorem bytes_append (a b : Text) : bytes (a ++ b) = bytes a + bytes b := by simp [bytes]

theorem parserMessage_eq (u v : Text) : parserMessage (u ++ v) v = "Parser error at offset " ++ Nat.repr (bytes u) := by
  have : bytes (u ++ v) - bytes v = bytes u := by rw [bytes_append]; omega
  show _ ++ Nat.repr (bytes (u ++ v) - bytes v) = _
  rw [this]

theorem eats_nextSegment : Eats (do let _ ← lit "::"; parseSegment : F ImportCause String) :=
  eats_sim (sim_bind (sim_lit _) fun _ => sim_nameOr _ _ _) (Parse.eats_bind_right (Parse.eats_mono (Parse.eats_lit (by decide)))
    fun _ => Parse.eats_name _ _)

theorem parseImport_says (std : Std) {s r : Text} {e : At × ImportCause} (h : parseImport s = .fail true e r) :
    Says std s (fun text => importReport text e.2) := by
  have hu := unreadable_sim sim_parseImport h
  obtain ⟨c, h0, rfl⟩ := mapErrAt_fail h
  show Says std s (fun text => importReport text c)
  obtain ⟨x, blanks, m, hs, hx, hb, hc, b, h1⟩ := keyword_fail h0
  have ho := opens_of hs hx hb hc
  have s0 : m <:+ s := hs ▸ List.suffix_append _ _
  have hseg : Suf parseSegment := suf_sim (sim_nameOr _ _ _) (Lsp.suf_name _ _)
  have hlit : Suf (lit "::" : F ImportCause Unit) := suf_sim (sim_lit _) (Lsp.suf_lit _)
  rcases bind_fail h1 with h1 | ⟨_, m1, h2, h1⟩
  · rcases separated1_fail eats_nextSegment hseg hlit (fun _ _ _ h => by cases (lit_fail h).1) h1 with h1 | ⟨_, s', _, h1⟩
    · obtain ⟨_, h3, _, h4⟩ := nameOr_fail h1
      subst h3 hs
      exact says_intro (fun _ => by rw [importReport]) fun w => .segmentName (behind_of hx hb hc w) h4
    · cases (nameOr_fail h1).1
  have s1 := (suf_sim (sim_separated1 (sim_nameOr _ _ _) (sim_lit _)) (Lsp.suf_separated1 (Lsp.suf_name _ _) (Lsp.suf_lit _)) _ _ _ h2).trans s0
  rcases bind_fail h1 with h1 | ⟨_, m2, h3, h1⟩
  · obtain ⟨_, h1⟩ := opt_fail h1
    rcases bind_fail h1 with h1 | ⟨_, _, _, h1⟩
    · cases (lit_fail h1).1
    · rcases alt_fail h1 with ⟨_, h1⟩ | h1
      · obtain ⟨_, h1, _⟩ := mapErr_fail h1
        cases (nameOr_fail h1).1
      · obtain ⟨_, h1, _⟩ := mapErr_fail h1
        cases (nameOr_fail h1).1
  have s2 := (suf_sim (sim_opt (sim_bind (sim_lit _) fun _ => sim_alt (sim_mapErr (sim_nameOr _ _ _)) (sim_mapErr (sim_nameOr _ _ _))))
    (Lsp.suf_opt (Lsp.suf_bind (Lsp.suf_lit _) fun _ => Lsp.suf_alt (Lsp.suf_name _ _) (Lsp.suf_name _ _))) _ _ _ h3).trans s1
  rcases bind_fail h1 with h1 | ⟨_, _, _, h1⟩
  · obtain ⟨_, h4, _, h5⟩ := chr_fail h1
    subst h4
    obtain ⟨x', hx'⟩ := s2
    subst hx'
    intro w
    refine ⟨w ++ x', ?_⟩
    have hr : importReport (w ++ (x' ++ m2)) (parser m2) = (m2, "Parser error at offset " ++ Nat.repr (bytes (w ++ x'))) := by
      show importReport _ (.parser m2) = _
      rw [importReport, ← List.append_assoc, parserMessage_eq]
    simp only [hr]
    exact ⟨(List.append_assoc ..).symm, List.suffix_append _ _, .import (broken_intro ho hu) fun d hd => by simpa using h5 d hd⟩
  · cases h1

/-! ### Definitions -/

theorem suf_parseDefinition (std : Std) : Suf (parseDefinition std) := suf_sim (sim_parseDefinition std) (Lsp.suf_parseDefinition std)
theorem eats_parseDefinition (std : Std) : Eats (parseDefinition std) := eats_sim (sim_parseDefinition std) (Parse.eats_parseDefinition std)

/-- Final errors of definitions in texts shorter than `n`. -/
def DefsSay (std : Std) (n : Nat) : Prop := ∀ s : Text, s.length < n → ∀ e r, parseDefinition std s = .fail true e r →
  Says std s (fun text => definitionReport text e)

theorem parseModule_says (std : Std) {n : Nat} (ih : DefsSay std n) {s r : Text} {e : At × ModuleCause} (hn : s.length < n + 1)
    (h : parseModule (parseDefinition std) s = .fail true e r) : Says std s (fun text => moduleReport text e.2) := by
  have hu := unreadable_sim (sim_parseModule (sim_parseDefinition std)) h
  obtain ⟨c, h0, rfl⟩ := mapErrAt_fail h
  show Says std s (fun text => moduleReport text c)
  obtain ⟨x, blanks, m, hs, hx, hb, hc, b, h1⟩ := keyword_fail h0
  have ho := opens_of hs hx hb hc
  have s0 : m <:+ s := hs ▸ List.suffix_append _ _
  have hparser : ∀ v, v <:+ s → c = .parser v → Says std s (fun text => moduleReport text c) := fun v ⟨x, hx⟩ hc => by
    subst hx hc
    exact says_intro (fun _ => by rw [moduleReport]) fun w => .module (broken_intro ho hu)
  rcases bind_fail h1 with h1 | ⟨_, m1, h2, h1⟩
  · obtain ⟨_, h3, _, h4⟩ := nameOr_fail h1
    subst h3 hs
    exact says_intro (fun _ => by rw [moduleReport]) fun w => .moduleName (behind_of hx hb hc w) h4
  have s1 := (suf_sim (sim_nameOr _ _ _) (Lsp.suf_name _ _) _ _ _ h2).trans s0
  rcases bind_fail h1 with h1 | ⟨_, _, _, h1⟩
  · rw [sp_run] at h1
    have s3 := (suf_ws_drop _ isSpace).trans s1
    have hsim : Sim (ws (mapErr ModuleCause.definition (parseDefinition std))) (Parse.ws (Parse.parseDefinition std)) :=
      sim_ws (sim_mapErr (sim_parseDefinition std))
    have hse : Suf (ws (mapErr ModuleCause.definition (parseDefinition std))) := suf_sim hsim (Lsp.suf_ws (Lsp.suf_parseDefinition std))
    rcases surround_fail h1 with ⟨_, h3, _⟩ | ⟨_, s', hs', ⟨b', h3⟩ | ⟨a, m', h3, h4, h5, _⟩⟩
    · exact hparser _ s3 h3
    · have hsuf : s' <:+ s := (hs' ▸ List.suffix_cons '{' s' : s' <:+ m1.dropWhile isSpace).trans s3
      have hlen : s'.length < s.length := by
        have h7 := s3.length_le
        rw [hs', List.length_cons] at h7
        omega
      obtain ⟨_, d, h4, h5⟩ := many_fail (eats_sim hsim (Parse.eats_ws (Parse.eats_parseDefinition std))) hse h3
      rw [ws_run] at h5
      obtain ⟨e', h6, h7⟩ := mapErr_fail h5
      subst h7
      have h8 := (suf_ws_drop d isMulti).trans h4
      have := says_up (h8.trans hsuf) (ih _ (by have := h8.length_le; omega) _ _ h6)
      intro w
      obtain ⟨u, h9⟩ := this w
      exact ⟨u, by simpa only [moduleReport] using h9⟩
    · have hsuf : s' <:+ s := (hs' ▸ List.suffix_cons '{' s' : s' <:+ m1.dropWhile isSpace).trans s3
      exact hparser _ ((suf_ws_drop _ _).trans ((suf_sim (sim_many hsim) (Lsp.suf_many (Lsp.suf_ws (Lsp.suf_parseDefinition std)))
        _ _ _ h3).trans hsuf)) h4
  · cases h1

theorem defsSay (std : Std) : ∀ n, DefsSay std n
  | 0 => fun _ h => by omega
  | n + 1 => fun s hn e r h => by
    have ih := defsSay std n
    rw [parseDefinition_eq] at h
    rcases bind_fail h with h | ⟨_, m1, h1, h⟩
    · exact absurd h fun h => wsComments_ok h
    have s1 := suf_wsComments _ _ _ h1
    rcases bind_fail h with h | ⟨_, m2, h2, h⟩
    · rw [ws_run] at h
      obtain ⟨e', h3, h4⟩ := mapErr_fail h
      subst h4
      have := says_up ((suf_ws_drop _ _).trans s1) (parseAttributes_says std h3)
      intro w
      obtain ⟨u, h9⟩ := this w
      exact ⟨u, by simpa only [definitionReport] using h9⟩
    have s2 := (suf_ws (suf_sim (sim_mapErr (sim_parseAttributes std)) (Lsp.suf_parseAttributes std)) _ _ _ h2).trans s1
    rcases bind_fail h with h | ⟨_, _, _, h⟩
    · rw [sp_run] at h
      have s3 := (suf_ws_drop m2 isSpace).trans s2
      revert h
      generalize m2.dropWhile isSpace = t at s3 ⊢
      intro h
      have hnt : t.length < n + 1 := by have := s3.length_le; omega
      rcases bind_fail h with h | ⟨d, t', h3, hk⟩
      · cases (peekAny_fail h).1
      have ht : t' = t := by
        cases t with
        | nil => cases h3
        | cons x t => cases h3; rfl
      subst ht
      clear h
      have h := hk
      clear hk
      rcases ite_fail h with ⟨_, h⟩ | ⟨_, h⟩
      · obtain ⟨e', h4, h5⟩ := mapErr_fail h
        subst h5
        have := says_up s3 (parseModule_says std ih hnt h4)
        intro w
        obtain ⟨u, h9⟩ := this w
        exact ⟨u, by simpa only [definitionReport] using h9⟩
      rcases ite_fail h with ⟨_, h⟩ | ⟨_, h⟩
      · rcases bind_fail h with h | ⟨_, _, _, h⟩
        · obtain ⟨e', h4, h5⟩ := mapErr_fail h
          subst h5
          have := says_up s3 (parseStruct_says std h4)
          intro w
          obtain ⟨u, h9⟩ := this w
          exact ⟨u, by simpa only [definitionReport] using h9⟩
        · cases h
      rcases ite_fail h with ⟨_, h⟩ | ⟨_, h⟩
      · rcases bind_fail h with h | ⟨_, _, _, h⟩
        · obtain ⟨e', h4, h5⟩ := mapErr_fail h
          subst h5
          have := says_up s3 (parseEnum_says std h4)
          intro w
          obtain ⟨u, h9⟩ := this w
          exact ⟨u, by simpa only [definitionReport] using h9⟩
        · cases h
      rcases ite_fail h with ⟨_, h⟩ | ⟨_, h⟩
      · rcases bind_fail h with h | ⟨_, _, _, h⟩
        · obtain ⟨e', h4, h5⟩ := mapErr_fail h
          subst h5
          have := says_up s3 (parseConst_says std h4)
          intro w
          obtain ⟨u, h9⟩ := this w
          exact ⟨u, by simpa only [definitionReport] using h9⟩
        · cases h
      rcases ite_fail h with ⟨_, h⟩ | ⟨_, h⟩
      · rcases bind_fail h with h | ⟨_, _, _, h⟩
        · obtain ⟨e', h4, h5⟩ := mapErr_fail h
          subst h5
          have := says_up s3 (parseAlias_says std h4)
          intro w
          obtain ⟨u, h9⟩ := this w
          exact ⟨u, by simpa only [definitionReport] using h9⟩
        · cases h
      rcases ite_fail h with ⟨_, h⟩ | ⟨_, h⟩
      · rcases bind_fail h with h | ⟨_, _, _, h⟩
        · obtain ⟨e', h4, h5⟩ := mapErr_fail h
          subst h5
          have := says_up s3 (parseImport_says std h4)
          intro w
          obtain ⟨u, h9⟩ := this w
          exact ⟨u, by simpa only [definitionReport] using h9⟩
        · cases h
      · cases (fail_fail h).1
    · cases h

theorem parseDefinition_says (std : Std) {s r : Text} {e : DefinitionError} (h : parseDefinition std s = .fail true e r) :
    Says std s (fun text => definitionReport text e) := defsSay std _ s (Nat.lt_succ_self _) _ _ h

/-! ### Schemas -/

/-- A list of definitions ends before the first that cannot be read, or in it. -/
theorem definitions_reads (std : Std) : ∀ {n : Nat} {s : Text}, s.length < n →
    (∃ ds rest, manyAux (mapErr SchemaCause.definition (parseDefinition std)) n s = .ok ds rest ∧ Reads std s ds rest ∧
      Unreadable (Parse.parseDefinition std) rest) ∨
    ∃ e r ds rest, manyAux (mapErr SchemaCause.definition (parseDefinition std)) n s = .fail true (.definition e) r ∧
      Reads std s ds rest ∧ parseDefinition std rest = .fail true e r ∧ rest <:+ s
  | 0, _, h => by omega
  | n + 1, s, hn => by
    rw [manyAux]
    cases hp : parseDefinition std s with
    | fail b e r =>
      have hm : mapErr SchemaCause.definition (parseDefinition std) s = .fail b (.definition e) r := by rw [mapErr, hp]
      rw [hm]
      cases b with
      | false => exact .inl ⟨[], s, rfl, .nil, unreadable_sim (sim_parseDefinition std) hp⟩
      | true => exact .inr ⟨e, r, [], s, rfl, .nil, hp, List.suffix_refl _⟩
    | ok d m =>
      have hm : mapErr SchemaCause.definition (parseDefinition std) s = .ok d m := by rw [mapErr, hp]
      have hl := eats_parseDefinition std _ _ _ hp
      have hd := sim_ok (sim_parseDefinition std) hp
      rw [hm]
      simp only [if_neg (show ¬ m.length = s.length by omega)]
      rcases definitions_reads std (n := n) (s := m) (by omega) with ⟨ds, rest, h1, h2, h3⟩ | ⟨e, r, ds, rest, h1, h2, h3, h4⟩
      · rw [h1]; exact .inl ⟨d :: ds, rest, rfl, .cons hd h2, h3⟩
      · rw [h1]; exact .inr ⟨e, r, d :: ds, rest, rfl, .cons hd h2, h3, h4.trans (suf_parseDefinition std _ _ _ hp)⟩

theorem header_sim : Sim (do let c ← ws (mapErr SchemaCause.comment parseComments); chr '\n'; pure c : F SchemaCause (List String))
    (do let c ← Parse.ws Parse.parseComments; Parse.chr '\n'; pure c) :=
  sim_bind (sim_ws (sim_mapErr sim_parseComments)) fun _ => sim_bind (sim_chr _) fun _ => sim_pure _

/-- What is wrong with a text that is no schema. -/
theorem schema_says (std : Std) {text r : Text} {b : Bool} {e : SchemaCause}
    (h : (do let s ← schemaParser std; eof; pure s : F SchemaCause Schema) text = .fail b e r) :
    ∃ u, text = u ++ (schemaReport text e).1 ∧ Explains std u (schemaReport text e).1 (schemaReport text e).2 ∧
      InFirstBroken std text (schemaReport text e).1 := by
  rcases bind_fail h with h | ⟨sc, m, h1, h⟩
  · rcases bind_fail h with h | ⟨o, body, h1, h⟩
    · obtain ⟨_, h⟩ := opt_fail h
      rcases bind_fail h with h | ⟨_, _, _, h⟩
      · exact absurd h fun h => wsComments_ok h
      rcases bind_fail h with h | ⟨_, _, _, h⟩
      · cases (chr_fail h).1
      · cases h
    have hh : Header text body := by
      rcases Parse.opt_eq_ok (sim_ok (sim_opt header_sim) h1) with ⟨c, _, h2⟩ | ⟨_, h2, h3⟩
      · exact .inl ⟨c, h2⟩
      · exact .inr ⟨fun a r h4 => by (rw [h4] at h3; cases h3), h2⟩
    have hsuf : body <:+ text := suf_sim (sim_opt header_sim) (Lsp.suf_opt (Lsp.suf_bind (Lsp.suf_ws Lsp.suf_parseComments) fun _ =>
      Lsp.suf_bind (Lsp.suf_chr _) fun _ => Lsp.suf_pure _)) _ _ _ h1
    rcases bind_fail h with h | ⟨_, _, _, h⟩
    · rcases definitions_reads std (n := body.length + 1) (s := body) (by omega) with ⟨ds, rest, h2, _⟩ | ⟨e', r', ds, rest, h2, h3, h4, h5⟩
      · rw [many, h2] at h; cases h
      · rw [many, h2] at h
        cases h
        obtain ⟨w, rfl⟩ := h5.trans hsuf
        obtain ⟨u, h6, h7, h8⟩ := parseDefinition_says std h4 w
        exact ⟨u, h6, h8, body, ds, rest, hh, h3, unreadable_sim (sim_parseDefinition std) h4, h7⟩
    · rcases bind_fail h with h | ⟨_, _, _, h⟩
      · have := (takeWhile_fail h).2.2.2; omega
      · cases h
  · rcases bind_fail h with he | ⟨_, _, _, h⟩
    · obtain ⟨o, body, h2, h1⟩ := bind_eq_ok h1
      obtain ⟨ds, rest, h3, h1⟩ := bind_eq_ok h1
      obtain ⟨w, v, h4, h1⟩ := bind_eq_ok h1
      obtain ⟨e1, e2, e3, _⟩ := Parse.takeWhile_eq_ok (sim_ok (sim_takeWhile _ _) h4)
      cases h1
      have hh : Header text body := by
        rcases Parse.opt_eq_ok (sim_ok (sim_opt header_sim) h2) with ⟨c, _, h2⟩ | ⟨_, h2, h3⟩
        · exact .inl ⟨c, h2⟩
        · exact .inr ⟨fun a r h4 => by (rw [h4] at h3; cases h3), h2⟩
      have hsuf : body <:+ text := suf_sim (sim_opt header_sim) (Lsp.suf_opt (Lsp.suf_bind (Lsp.suf_ws Lsp.suf_parseComments) fun _ =>
        Lsp.suf_bind (Lsp.suf_chr _) fun _ => Lsp.suf_pure _)) _ _ _ h2
      have hrest : rest <:+ body := suf_sim (sim_many (sim_mapErr (sim_parseDefinition std))) (Lsp.suf_many (Lsp.suf_parseDefinition std)) _ _ _ h3
      rcases definitions_reads std (n := body.length + 1) (s := body) (by omega) with ⟨ds', rest', h5, h6, h7⟩ | ⟨e', r', ds', rest', h5, _⟩
      · rw [many, h5] at h3
        cases h3
        have hv : m ≠ [] ∧ e = .parser m := by
          have h0 : (if m = [] then R.ok () m else .fail false (SchemaCause.parser m) m) = .fail b e r := he
          by_cases hm : m = []
          · rw [if_pos hm] at h0; cases h0
          · rw [if_neg hm] at h0; cases h0; exact ⟨hm, rfl⟩
        obtain ⟨y, rfl⟩ := hrest.trans hsuf
        have hr : schemaReport (y ++ rest) e = (m, "Parser error at offset " ++ Nat.repr (bytes (y ++ w))) := by
          rw [hv.2]
          show (m, parserMessage (y ++ rest) m) = _
          rw [e1, ← List.append_assoc, parserMessage_eq]
        rw [hr]
        refine ⟨y ++ w, by rw [e1, List.append_assoc], .nothing e2 hv.1 ?_ (e1 ▸ h7), body, _, rest, hh, h6, h7, e1 ▸ List.suffix_append _ _⟩
        intro c hc
        exact e3 c hc
      · rw [many, h5] at h3; cases h3
    · cases h

end Mabo.Failing
