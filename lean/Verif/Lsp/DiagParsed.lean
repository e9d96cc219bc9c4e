import Verif.Lsp.OutlineDefs
import Verif.Spec.Diagnostics
/-! What the parser guarantees about the parts of a tree: how many tokens they have, and their spans. -/
namespace Mabo.Lsp
open Mabo.Parse Mabo.Spanned Mabo.Spec Mabo.Spec.Diag

theorem Cover.length_eq {s r : Text} {cs : List Call} {is : List Item} (h : Cover s r cs is) : cs.length = is.length := by
  induction h with
  | nil _ => rfl
  | cons _ _ _ _ _ _ _ _ _ ih => simp [ih]

/-- The span goes from the first to the last call, with blanks around, and is in the text. -/
def SpanOk (text : Text) (cs : List Call) (sp : Span) : Prop :=
  ∃ a b x y, cs.head? = some a ∧ cs.getLast? = some b ∧ sp.start = x ++ a.span.start ∧ b.span.stop = y ++ sp.stop ∧
    Blank x ∧ Blank y ∧ sp.start <:+ text

/-- A list as the parser makes it. -/
structure ListOk {α : Type} (P : α → Prop) (d : Punctuated α) : Prop where
  all : ∀ a ∈ d.values, P a
  commas : d.commas.length + 1 = d.values.length

/-- A type. -/
def TyOk (t : Ty) : Prop :=
  (visitType t).length = (Spec.typeItems t.erase).length ∧ ∃ s r, Tight s r (visitType t) ∧ Spanned.parseType s = .ok t r

/-- The calls of a named field behind its comment. -/
def namedBody (f : Spanned.NamedField) : List Call :=
  ⟨f.name.span, "property", ["declaration"]⟩ :: ⟨f.colon, "colon", []⟩ :: (visitType f.ty ++ visitId f.id)
/-- The calls of a variant behind its comment. -/
def variantBody (v : Spanned.Variant) : List Call :=
  ⟨v.name.span, "enumMember", ["declaration"]⟩ :: (visitFields v.fields ++ visitId v.id)

theorem visitNamedField_eq (f : Spanned.NamedField) : visitNamedField f = visitComment f.comment ++ namedBody f := by
  simp [visitNamedField, namedBody]
theorem visitVariant_eq (v : Spanned.Variant) : visitVariant v = visitComment v.comment ++ variantBody v := by
  simp [visitVariant, variantBody]

/-- A named field. -/
structure NamedOk (text : Text) (f : Spanned.NamedField) : Prop where
  len : (visitNamedField f).length = (namedFieldItems f.erase).length
  span : SpanOk text (namedBody f) f.span
  ty : TyOk f.ty
/-- A field without name. -/
structure UnnamedOk (text : Text) (f : Spanned.UnnamedField) : Prop where
  len : (visitUnnamedField f).length = (unnamedFieldItems f.erase).length
  span : SpanOk text (visitUnnamedField f) f.span
  ty : TyOk f.ty
/-- Fields. -/
def FieldsOk (text : Text) : Spanned.Fields → Prop
  | .named d => ListOk (NamedOk text) d.inner
  | .unnamed d => ListOk (UnnamedOk text) d.inner
  | .unit => True
/-- A variant. -/
structure VariantOk (text : Text) (v : Spanned.Variant) : Prop where
  len : (visitVariant v).length = (variantItems v.erase).length
  span : SpanOk text (variantBody v) v.span
  fields : FieldsOk text v.fields
/-- Type parameters. -/
def GenOk (g : Option (Delimited (Punctuated Name))) : Prop :=
  (∀ d, g = some d → ListOk (fun _ => True) d.inner) ∧
    (visitGenerics g).length = (genericsItems (eraseGenerics g).1 (eraseGenerics g).2).length

theorem commaList_parsed {α : Type} {p : P α} (hs : Suf p) {s r : Text} {d : Punctuated α} {text : Text} (ht : s <:+ text)
    (h : Spanned.commaList p s = .ok d r) :
    ListOk (fun a => ∃ s' r', s' <:+ text ∧ p s' = .ok a r') d := by
  obtain ⟨xs, m, a, t, h1, h2, rfl⟩ := punctuateAux_chain h (.nil s) (fun _ _ e => by cases e)
  have c : m <:+ s ∧ ∀ x ∈ xs, ∃ s' r', s' <:+ text ∧ p s' = .ok x.1 r' := by
    clear h h2
    induction h1 with
    | nil => exact ⟨List.suffix_rfl, fun _ h => nomatch h⟩
    | @snoc m r xs x _ hf ih =>
      obtain ⟨i1, i2⟩ := ih
      obtain ⟨a, m1, h3, e1⟩ := bind_eq_ok hf
      obtain ⟨c, m2, h4, e2⟩ := bind_eq_ok e1
      obtain ⟨rfl, rfl⟩ := pure_eq_ok e2
      refine ⟨((suf_ws (suf_span (suf_chr _)) h4).trans (hs h3)).trans i1, fun y hy => ?_⟩
      rcases List.mem_append.1 hy with hy | hy
      · exact i2 y hy
      · rw [List.mem_singleton] at hy; subst hy
        exact ⟨m, m1, i1.trans ht, h3⟩
  obtain ⟨a', m1, h3, e1⟩ := bind_eq_ok h2
  obtain ⟨o, m2, h4, e2⟩ := bind_eq_ok e1
  obtain ⟨e5, rfl⟩ := pure_eq_ok e2
  cases e5
  refine ⟨fun b hb => ?_, by simp⟩
  simp only [List.mem_append, List.mem_map, List.mem_singleton] at hb
  rcases hb with ⟨x, hx, rfl⟩ | rfl
  · exact c.2 x hx
  · exact ⟨m, m1, c.1.trans ht, h3⟩

theorem ListOk.imp {α : Type} {P Q : α → Prop} {d : Punctuated α} (h : ListOk P d) (hi : ∀ a, P a → Q a) : ListOk Q d :=
  ⟨fun a ha => hi a (h.all a ha), h.commas⟩

theorem surround_parsed {α : Type} {p : P α} {o c : Char} {s r : Text} {d : Delimited α}
    (h : Spanned.surround o c p s = .ok d r) : ∃ m m', m <:+ s ∧ p m = .ok d.inner m' := by
  obtain ⟨x, m, h1, e1⟩ := bind_eq_ok h
  obtain ⟨a, m1, h2, e2⟩ := bind_eq_ok (cutErr_ok.1 e1)
  obtain ⟨y, m2, h3, e3⟩ := bind_eq_ok e2
  obtain ⟨rfl, rfl⟩ := pure_eq_ok e3
  exact ⟨m, m1, suf_span (suf_chr _) h1, h2⟩

theorem suf_of_cov {α : Type} {p : P α} {calls : α → List Call} {items : α → List Item} (h : Cov p calls items) : Suf p :=
  fun e => (h e).suffix

theorem tyOk {s r : Text} {t : Ty} (h : Spanned.parseType s = .ok t r) : TyOk t :=
  ⟨(cov_parseType h).length_eq, s, r, tight_parseType h, h⟩

theorem blank_space (s : Text) : Blank (s.takeWhile isSpace) := by
  intro c hc
  have := List.all_takeWhile (p := isSpace) (l := s)
  rw [List.all_eq_true] at this
  have := this c hc
  simp only [isSpace, Bool.or_eq_true, beq_iff_eq] at this
  rcases this with h | h
  · exact .inl h
  · exact .inr (.inl h)

theorem blank_multi (s : Text) : Blank (s.takeWhile isMulti) := by
  intro c hc
  have := List.all_takeWhile (p := isMulti) (l := s)
  rw [List.all_eq_true] at this
  have := this c hc
  simpa [isMulti, or_assoc] using this

theorem blank_nil : Blank [] := fun _ h => nomatch h

/-- The last call of an optional id. -/
theorem optId_last {cs : List Call} {s r : Text} {o : Option Id} (h : Spanned.optId s = .ok o r)
    (hl : ∃ b, cs.getLast? = some b ∧ b.span.stop = s) :
    ∃ b, (cs ++ visitId o).getLast? = some b ∧ b.span.stop = r := by
  rcases opt_eq_ok h with ⟨i, rfl, h8⟩ | ⟨rfl, rfl, _⟩
  · rw [sp_run] at h8
    obtain ⟨⟨v, sp2⟩, m6, h9, h10⟩ := bind_eq_ok h8
    obtain ⟨rfl, rfl⟩ := pure_eq_ok h10
    have := (withSpan_eq_ok h9).2
    simp only at this
    exact ⟨⟨sp2, "identifier", []⟩, by simp [visitId, List.getLast?_append, List.getLast?_cons], by simp [this]⟩
  · simpa [visitId] using hl

theorem namedOk {text s r : Text} {f : Spanned.NamedField} (hs : s <:+ text) (e : Spanned.parseNamedField s = .ok f r) :
    NamedOk text f := by
  have hl := (cov_parseNamedField e).length_eq
  obtain ⟨comment, m, h1, e1⟩ := bind_eq_ok e
  obtain ⟨⟨⟨name, colon, ty, id⟩, sp1⟩, m1, h2, e2⟩ := bind_eq_ok e1
  obtain ⟨rfl, rfl⟩ := pure_eq_ok e2
  obtain ⟨h3, h3'⟩ := withSpan_eq_ok h2
  simp only at h3 h3'
  subst h3'
  obtain ⟨_, m2, h4, e4⟩ := bind_eq_ok h3
  obtain ⟨_, m3, h5, e5⟩ := bind_eq_ok e4
  obtain ⟨_, m4, h6, e6⟩ := bind_eq_ok e5
  obtain ⟨_, m5, h7, e7⟩ := bind_eq_ok e6
  obtain ⟨e8, rfl⟩ := pure_eq_ok e7
  cases e8
  rw [sp_run] at h4 h6
  obtain ⟨t1, t2⟩ := tight_parseType h6
  have hm : m <:+ s := suf_ws (fun h => (cov_parseComments h).suffix) h1
  refine ⟨hl, ?_, tyOk h6⟩
  obtain ⟨b, hb1, hb2⟩ := optId_last h7 t2
  refine ⟨⟨name.span, "property", ["declaration"]⟩, b, m.takeWhile isSpace, [], rfl, ?_, ?_, by simpa using hb2,
    blank_space _, blank_nil, hm.trans hs⟩
  · simp only [namedBody, List.getLast?_cons, hb1]; simp
  · simp only [(named_eq_ok h4).2]
    exact (List.takeWhile_append_dropWhile).symm

theorem unnamedOk {text s r : Text} {f : Spanned.UnnamedField} (hs : s <:+ text) (e : Spanned.parseUnnamedField s = .ok f r) :
    UnnamedOk text f := by
  have hl := (cov_parseUnnamedField e).length_eq
  obtain ⟨⟨⟨ty, id⟩, sp1⟩, m1, h2, e2⟩ := bind_eq_ok e
  obtain ⟨rfl, rfl⟩ := pure_eq_ok e2
  obtain ⟨h3, h3'⟩ := withSpan_eq_ok h2
  simp only at h3 h3'
  subst h3'
  obtain ⟨_, m4, h6, e6⟩ := bind_eq_ok h3
  obtain ⟨_, m5, h7, e7⟩ := bind_eq_ok e6
  obtain ⟨e8, rfl⟩ := pure_eq_ok e7
  cases e8
  rw [ws_run] at h6
  obtain ⟨⟨c, t1, t1'⟩, t2⟩ := tight_parseType h6
  refine ⟨hl, ?_, tyOk h6⟩
  obtain ⟨b, hb1, hb2⟩ := optId_last h7 t2
  refine ⟨c, b, s.takeWhile isMulti, [], by simp [visitUnnamedField, t1], by simpa [visitUnnamedField] using hb1, ?_,
    by simpa using hb2, blank_multi _, blank_nil, hs⟩
  rw [t1']
  exact (List.takeWhile_append_dropWhile).symm

/-- Fields, and their last call. -/
theorem fieldsOk {text s r : Text} {f : Spanned.Fields} (hs : s <:+ text) (e : Spanned.parseFields s = .ok f r) :
    FieldsOk text f ∧ (f = .unit ∧ r = s ∨ ∃ b, (visitFields f).getLast? = some b ∧ b.span.stop = r) := by
  obtain ⟨c, m, h1, e1⟩ := bind_eq_ok e
  have hm := peekAny_eq_ok h1
  subst hm
  by_cases hc : c = '{'
  · rw [if_pos hc] at e1
    obtain ⟨d, m1, h2, e2⟩ := bind_eq_ok e1
    obtain ⟨rfl, rfl⟩ := pure_eq_ok e2
    obtain ⟨m2, m3, h3, h4⟩ := surround_parsed h2
    refine ⟨(commaList_parsed (suf_of_cov cov_parseNamedField) (h3.trans hs) h4).imp fun a ⟨s', r', h5, h6⟩ => namedOk h5 h6, .inr ?_⟩
    exact ⟨⟨d.closing, "brace", []⟩, by simp [visitFields, List.getLast?_append, List.getLast?_cons], (surround_spans h2).2⟩
  rw [if_neg hc] at e1
  by_cases hc' : c = '('
  · rw [if_pos hc'] at e1
    obtain ⟨d, m1, h2, e2⟩ := bind_eq_ok e1
    obtain ⟨rfl, rfl⟩ := pure_eq_ok e2
    obtain ⟨m2, m3, h3, h4⟩ := surround_parsed h2
    refine ⟨(commaList_parsed (suf_of_cov cov_parseUnnamedField) (h3.trans hs) h4).imp fun a ⟨s', r', h5, h6⟩ => unnamedOk h5 h6, .inr ?_⟩
    exact ⟨⟨d.closing, "parenthesis", []⟩, by simp [visitFields, List.getLast?_append, List.getLast?_cons], (surround_spans h2).2⟩
  rw [if_neg hc'] at e1
  obtain ⟨rfl, rfl⟩ := pure_eq_ok e1
  exact ⟨trivial, .inl ⟨rfl, rfl⟩⟩

theorem variantOk {text s r : Text} {v : Spanned.Variant} (hs : s <:+ text) (e : Spanned.parseVariant s = .ok v r) :
    VariantOk text v := by
  have hl := (cov_parseVariant e).length_eq
  obtain ⟨comment, m, h1, e1⟩ := bind_eq_ok e
  obtain ⟨⟨⟨name, fields, id⟩, sp1⟩, m1, h2, e2⟩ := bind_eq_ok e1
  obtain ⟨rfl, rfl⟩ := pure_eq_ok e2
  obtain ⟨h3, h3'⟩ := withSpan_eq_ok h2
  simp only at h3 h3'
  subst h3'
  obtain ⟨_, m2, h4, e4⟩ := bind_eq_ok h3
  obtain ⟨_, m3, h5, e5⟩ := bind_eq_ok e4
  obtain ⟨_, m5, h7, e7⟩ := bind_eq_ok e5
  obtain ⟨e8, rfl⟩ := pure_eq_ok e7
  cases e8
  have hm : m <:+ s := suf_ws (fun h => (cov_parseComments h).suffix) h1
  have hm2 : m2 <:+ text := ((suf_sp (suf_of_cov (cov_camel "enumMember" ["declaration"] (by decide))) h4).trans hm).trans hs
  rw [sp_run] at h4 h5
  have hn := (named_eq_ok h4).2
  obtain ⟨f1, f2⟩ := fieldsOk ((List.dropWhile_suffix isSpace).trans hm2) h5
  have hfirst : m = m.takeWhile isSpace ++ name.span.start := by
    rw [hn]; exact (List.takeWhile_append_dropWhile).symm
  refine ⟨hl, ?_, f1⟩
  rcases f2 with ⟨rfl, rfl⟩ | f2
  · -- no fields: blanks may be behind the name
    rcases opt_eq_ok h7 with ⟨i, rfl, h8⟩ | ⟨rfl, rfl, _⟩
    · obtain ⟨b, hb1, hb2⟩ := optId_last (cs := [⟨⟨name.span.start, m2.dropWhile isSpace⟩, "", []⟩]) h7
        ⟨_, rfl, rfl⟩
      refine ⟨⟨name.span, "enumMember", ["declaration"]⟩, b, _, [], rfl, ?_, hfirst, by simpa using hb2, blank_space _, blank_nil,
        hm.trans hs⟩
      simp only [visitId, List.getLast?_append, List.getLast?_cons] at hb1
      simp [variantBody, visitFields, visitId, List.getLast?_cons] at hb1 ⊢
      exact hb1
    · refine ⟨⟨name.span, "enumMember", ["declaration"]⟩, ⟨name.span, "enumMember", ["declaration"]⟩, _,
        m2.takeWhile isSpace, rfl, rfl, hfirst, ?_, blank_space _, blank_space _, hm.trans hs⟩
      rw [hn]; exact (List.takeWhile_append_dropWhile).symm
  · obtain ⟨b, hb1, hb2⟩ := optId_last h7 f2
    refine ⟨⟨name.span, "enumMember", ["declaration"]⟩, b, _, [], rfl, ?_, hfirst, by simpa using hb2, blank_space _, blank_nil,
      hm.trans hs⟩
    simp only [variantBody, List.getLast?_cons, hb1]; simp

theorem genOk {s r : Text} {g : Option (Delimited (Punctuated Name))} (e : Spanned.parseGenerics s = .ok g r) : GenOk g := by
  refine ⟨fun d hd => ?_, (cov_parseGenerics e).length_eq⟩
  subst hd
  rcases opt_eq_ok e with ⟨d', h1, h2⟩ | ⟨h1, _, _⟩
  · injection h1 with h1
    subst h1
    obtain ⟨m2, m3, h3, h4⟩ := surround_parsed h2
    exact (commaList_parsed (suf_ws (suf_of_cov (cov_camel "typeParameter" ["declaration"] (by decide)))) List.suffix_rfl h4).imp
      fun _ _ => trivial
  · cases h1

/-! ### Definitions -/

/-- A definition that the parser read somewhere in the text. -/
def ParsedDef (std : Std) (text : Text) (d : Spanned.Definition) : Prop :=
  ∃ n s r, s <:+ text ∧ Spanned.defDepth std n s = .ok d r

/-- What the parser guarantees about the parts of a definition. -/
def DefParts (std : Std) (text : Text) : Spanned.Definition → Prop
  | .module _ _ _ _ ds _ => ∀ d ∈ ds, ParsedDef std text d
  | .struct s => GenOk s.generics ∧ FieldsOk text s.fields
  | .enum e => GenOk e.generics ∧ ListOk (VariantOk text) e.variants.inner
  | .typeAlias a => GenOk a.generics ∧ TyOk a.target
  | .const c => TyOk c.ty
  | .import _ => True

theorem defParts_with {std : Std} {text : Text} {d : Spanned.Definition} (c : List Name) (a : List Ast.Attribute)
    (h : DefParts std text d) : DefParts std text (Spanned.withAttributes (Spanned.withComment d c) a) := by
  cases d <;> exact h

theorem many_parsed {α : Type} {p : P α} (hs : Suf p) {text : Text} : ∀ n {s r : Text} {as : List α}, s <:+ text →
    manyAux p n s = .ok as r → ∀ a ∈ as, ∃ s' r', s' <:+ text ∧ p s' = .ok a r'
  | 0, _, _, _, _, h => by cases h
  | n + 1, s, r, as, ht, h => by
    rcases manyAux_eq_ok h with ⟨rfl, rfl, _⟩ | ⟨a, as', m, rfl, h1, h2⟩
    · exact fun _ h => nomatch h
    · intro b hb
      rcases List.mem_cons.1 hb with rfl | hb
      · exact ⟨s, m, ht, h1⟩
      · exact many_parsed hs n ((hs h1).trans ht) h2 b hb

theorem defKind_parts {std : Std} {text : Text} {k : Nat} {s r : Text} {d : Spanned.Definition} (hs : s <:+ text)
    (e : Spanned.defKind std (Spanned.defDepth std k) s = .ok d r) : DefParts std text d := by
  obtain ⟨c, m, h1, e1⟩ := bind_eq_ok e
  have hm := peekAny_eq_ok h1
  subst hm
  clear e
  by_cases hc : c = 'm'
  · rw [if_pos hc] at e1
    obtain ⟨keyword, m1, h1, e1⟩ := bind_eq_ok e1
    obtain ⟨_, m2, h2, e2⟩ := bind_eq_ok e1
    obtain ⟨name, m3, h3, e3⟩ := bind_eq_ok (cutErr_ok.1 e2)
    obtain ⟨d, m4, h4, e4⟩ := bind_eq_ok e3
    obtain ⟨rfl, rfl⟩ := pure_eq_ok e4
    have h5 : m3 <:+ text := (((suf_of_cov (cov_segment "namespace" ["declaration"] (by decide)) h3).trans
      (suf_takeWhile _ _ h2)).trans (suf_span (suf_lit _) h1)).trans hs
    rw [sp_run] at h4
    obtain ⟨m5, m6, h6, h7⟩ := surround_parsed h4
    have h8 : m5 <:+ text := h6.trans ((List.dropWhile_suffix isSpace).trans h5)
    intro x hx
    have hsuf : Suf (Spanned.defDepth std k) := suf_of_cov (cov_defDepth std k)
    obtain ⟨s', r', h9, h10⟩ := many_parsed (p := ws (Spanned.defDepth std k)) (suf_ws hsuf) _ h8 h7 x hx
    rw [ws_run] at h10
    exact ⟨k, _, r', (List.dropWhile_suffix isMulti).trans h9, h10⟩
  rw [if_neg hc] at e1; clear hc
  by_cases hc : c = 's'
  · rw [if_pos hc] at e1
    obtain ⟨d, m1, h2, e2⟩ := bind_eq_ok e1
    obtain ⟨rfl, rfl⟩ := pure_eq_ok e2
    obtain ⟨keyword, m1, g1, e1⟩ := bind_eq_ok h2
    obtain ⟨_, m2, g2, e2⟩ := bind_eq_ok e1
    obtain ⟨name, m3, g3, e3⟩ := bind_eq_ok (cutErr_ok.1 e2)
    obtain ⟨g, m4, g4, e4⟩ := bind_eq_ok e3
    obtain ⟨f, m5, g5, e5⟩ := bind_eq_ok e4
    obtain ⟨rfl, rfl⟩ := pure_eq_ok e5
    have h5 : m4 <:+ text := ((((suf_of_cov cov_parseGenerics g4).trans
      (suf_of_cov (cov_camel "struct" ["declaration"] (by decide)) g3)).trans
      (suf_takeWhile _ _ g2)).trans (suf_span (suf_lit _) g1)).trans hs
    rw [sp_run] at g5
    exact ⟨genOk g4, (fieldsOk ((List.dropWhile_suffix isSpace).trans h5) g5).1⟩
  rw [if_neg hc] at e1; clear hc
  by_cases hc : c = 'e'
  · rw [if_pos hc] at e1
    obtain ⟨d, m1, h2, e2⟩ := bind_eq_ok e1
    obtain ⟨rfl, rfl⟩ := pure_eq_ok e2
    obtain ⟨keyword, m1, g1, e1⟩ := bind_eq_ok h2
    obtain ⟨_, m2, g2, e2⟩ := bind_eq_ok e1
    obtain ⟨name, m3, g3, e3⟩ := bind_eq_ok (cutErr_ok.1 e2)
    obtain ⟨g, m4, g4, e4⟩ := bind_eq_ok e3
    obtain ⟨f, m5, g5, e5⟩ := bind_eq_ok e4
    obtain ⟨rfl, rfl⟩ := pure_eq_ok e5
    have h5 : m4 <:+ text := ((((suf_of_cov cov_parseGenerics g4).trans
      (suf_of_cov (cov_camel "enum" ["declaration"] (by decide)) g3)).trans
      (suf_takeWhile _ _ g2)).trans (suf_span (suf_lit _) g1)).trans hs
    rw [sp_run] at g5
    obtain ⟨m5, m6, h6, h7⟩ := surround_parsed g5
    have h8 : m5 <:+ text := h6.trans ((List.dropWhile_suffix isSpace).trans h5)
    exact ⟨genOk g4, (commaList_parsed (suf_of_cov cov_parseVariant) h8 h7).imp fun a ⟨s', r', h9, h10⟩ => variantOk h9 h10⟩
  rw [if_neg hc] at e1; clear hc
  by_cases hc : c = 'c'
  · rw [if_pos hc] at e1
    obtain ⟨d, m1, h2, e2⟩ := bind_eq_ok e1
    obtain ⟨rfl, rfl⟩ := pure_eq_ok e2
    obtain ⟨keyword, m1, g1, e1⟩ := bind_eq_ok h2
    obtain ⟨_, m2, g2, e2⟩ := bind_eq_ok e1
    obtain ⟨name, m3, g3, e3⟩ := bind_eq_ok (cutErr_ok.1 e2)
    obtain ⟨colon, m4, g4, e4⟩ := bind_eq_ok e3
    obtain ⟨ty, m5, g5, e5⟩ := bind_eq_ok e4
    obtain ⟨eq, m6, g6, e6⟩ := bind_eq_ok e5
    obtain ⟨l, m7, g7, e7⟩ := bind_eq_ok e6
    obtain ⟨c, m8, g8, e8⟩ := bind_eq_ok e7
    obtain ⟨rfl, rfl⟩ := pure_eq_ok e8
    rw [sp_run] at g5
    exact tyOk g5
  rw [if_neg hc] at e1; clear hc
  by_cases hc : c = 't'
  · rw [if_pos hc] at e1
    obtain ⟨d, m1, h2, e2⟩ := bind_eq_ok e1
    obtain ⟨rfl, rfl⟩ := pure_eq_ok e2
    obtain ⟨keyword, m1, g1, e1⟩ := bind_eq_ok h2
    obtain ⟨_, m2, g2, e2⟩ := bind_eq_ok e1
    obtain ⟨name, m3, g3, e3⟩ := bind_eq_ok (cutErr_ok.1 e2)
    obtain ⟨g, m4, g4, e4⟩ := bind_eq_ok e3
    obtain ⟨eq, m5, g5, e5⟩ := bind_eq_ok e4
    obtain ⟨t, m6, g6, e6⟩ := bind_eq_ok e5
    obtain ⟨c, m7, g7, e7⟩ := bind_eq_ok e6
    obtain ⟨rfl, rfl⟩ := pure_eq_ok e7
    rw [sp_run] at g6
    exact ⟨genOk g4, tyOk g6⟩
  rw [if_neg hc] at e1; clear hc
  by_cases hc : c = 'u'
  · rw [if_pos hc] at e1
    obtain ⟨d, m1, h2, e2⟩ := bind_eq_ok e1
    obtain ⟨rfl, rfl⟩ := pure_eq_ok e2
    trivial
  rw [if_neg hc] at e1; cases e1

theorem ParsedDef.parts {std : Std} {text : Text} {d : Spanned.Definition} (h : ParsedDef std text d) : DefParts std text d := by
  obtain ⟨n, s, r, hs, e⟩ := h
  cases n with
  | zero => cases e
  | succ n =>
    obtain ⟨c, m1, h1, e1⟩ := bind_eq_ok e
    obtain ⟨a, m2, h2, e2⟩ := bind_eq_ok e1
    obtain ⟨x, m3, h3, e3⟩ := bind_eq_ok e2
    obtain ⟨rfl, rfl⟩ := pure_eq_ok e3
    have hm : m2 <:+ text := ((suf_ws (suf_parseAttributes std) h2).trans
      (suf_ws (fun h => (cov_parseComments h).suffix) h1)).trans hs
    rw [sp_run] at h3
    exact defParts_with _ _ (defKind_parts ((List.dropWhile_suffix isSpace).trans hm) h3)

theorem ParsedDef.len {std : Std} {text : Text} {d : Spanned.Definition} (h : ParsedDef std text d) :
    (visitDefinition d).length = (definitionItems std d.erase).length := by
  obtain ⟨n, s, r, _, e⟩ := h
  exact (cov_defDepth std n e).length_eq

theorem parsed_schema {std : Std} {text : Text} {s : Spanned.Schema} (h : Spanned.parseSchema std text = some s) :
    ∀ d ∈ s.definitions, ParsedDef std text d := by
  unfold Spanned.parseSchema at h
  cases e : Spanned.schemaParser std text with
  | back => rw [e] at h; cases h
  | cut => rw [e] at h; cases h
  | ok a r =>
    rw [e] at h
    cases r with
    | cons c r => cases h
    | nil =>
      injection h with h
      subst h
      obtain ⟨c, m1, h1, e1⟩ := bind_eq_ok e
      obtain ⟨ds, m2, h2, e2⟩ := bind_eq_ok e1
      obtain ⟨_, m3, h3, e3⟩ := bind_eq_ok e2
      obtain ⟨rfl, rfl⟩ := pure_eq_ok e3
      have c2 : m1 <:+ text := by
        refine suf_opt (suf_bind (suf_ws fun h => (cov_parseComments h).suffix) fun _ => suf_bind (suf_chr _) fun _ => suf_pure _) h1
      intro d hd
      obtain ⟨s', r', h4, h5⟩ := many_parsed (suf_of_cov (cov_parseDefinition std)) _ c2 h2 d hd
      exact ⟨_, s', r', h4, h5⟩

end Mabo.Lsp
