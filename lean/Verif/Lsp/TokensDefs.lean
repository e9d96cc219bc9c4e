import Verif.Lsp.TokensLemmas
/-! The calls of the visitor cover the items of definitions. -/
namespace Mabo.Lsp
open Mabo.Parse Mabo.Spanned Mabo.Spec
open Mabo.Schema (Prim)

variable {α : Type} {p : P α} {calls : α → List Call} {items : α → List Item}

theorem cov_parseId : Cov Spanned.parseId (fun id => [⟨id.span, "identifier", []⟩]) (fun id => idItems (some id.value)) := by
  intro s id r e
  obtain ⟨⟨v, sp1⟩, m, h1, e1⟩ := bind_eq_ok e
  obtain ⟨rfl, rfl⟩ := pure_eq_ok e1
  obtain ⟨h2, h3⟩ := withSpan_eq_ok h1
  simp only at h2 h3
  subst h3
  obtain ⟨_, m1, h4, h5⟩ := bind_eq_ok h2
  obtain ⟨n, m2, h6, h7⟩ := bind_eq_ok h5
  obtain ⟨rfl, rfl⟩ := pure_eq_ok h7
  obtain ⟨h8, h9, _⟩ := decUint_eq_ok h6
  rw [chr_eq_ok h4, h8]
  refine .one (v := '@' :: printNat n) (by simp) ?_ ?_
  · intro hm
    rcases List.mem_cons.1 hm with h | hm
    · cases h
    · exact isDigit_ne (printNat_digits n _ hm) rfl
  · have : (BitVec.ofNat 32 n).toNat = n := by rw [BitVec.toNat_ofNat, Nat.mod_eq_of_lt h9]
    simp only [this]; rfl

theorem cov_optId : Cov Spanned.optId visitId (fun o => idItems (o.map Spanned.Id.value)) := by
  intro s o r e
  have := cov_opt (cov_sp cov_parseId) e
  cases o <;> exact this

theorem cov_commentLine : Cov Spanned.commentLine (fun l => [⟨l.span, "comment", ["documentation"]⟩])
    (fun l => [commentItem l.value]) := by
  intro s l r e
  obtain ⟨_, m, h1, e1⟩ := bind_eq_ok e
  obtain ⟨⟨v, sp1⟩, m1, h2, e2⟩ := bind_eq_ok e1
  obtain ⟨_, m2, h3, e3⟩ := bind_eq_ok e2
  obtain ⟨rfl, rfl⟩ := pure_eq_ok e3
  obtain ⟨h4, h5⟩ := withSpan_eq_ok h2
  simp only at h4 h5
  subst h5
  obtain ⟨_, m3, h6, h7⟩ := bind_eq_ok h4
  obtain ⟨b, m4, h8, h9⟩ := bind_eq_ok h7
  have hb := takeWhile_eq_ok h8
  have hv := takeWhile_eq_ok h9
  have e4 : m = ("///".toList ++ b ++ v) ++ m1 := by rw [lit_eq_ok h6, hb.1, hv.1]; simp
  refine (Cover.post ?_ (suf_chr _ h3)).pre (suf_takeWhile _ _ h1)
  rw [e4]
  have hb' : ∀ c ∈ b, c = ' ' ∨ c = '\t' := fun c hc => by simpa [isSpace] using hb.2.1 c hc
  refine .one (by simp) ?_ ?_
  · intro hm
    rcases List.mem_append.1 hm with hm | hm
    · rcases List.mem_append.1 hm with hm | hm
      · exact absurd hm (by decide)
      · rcases hb' _ hm with h | h <;> cases h
    · exact absurd (hv.2.1 _ hm) (by decide)
  · exact ⟨b, hb', by simp⟩

theorem cov_parseComments : Cov Spanned.parseComments visitComment (fun ls => (ls.map Name.value).map commentItem) := by
  intro s ls r e
  have := cov_many cov_commentLine e
  simpa [visitComment, List.flatMap_singleton', ← List.map_eq_flatMap, Function.comp_def] using this

theorem cov_segment (ty : String) (ms : List String) (hg : Good ty ms) : Cov (named parseSegment) (fun n => [⟨n.span, ty, ms⟩])
    (fun n => [word ty n.value ms]) := cov_name ty ms (by decide) (by decide) hg

theorem cov_camel (ty : String) (ms : List String) (hg : Good ty ms) : Cov (named parseCamel) (fun n => [⟨n.span, ty, ms⟩])
    (fun n => [word ty n.value ms]) := cov_name ty ms (by decide) (by decide) hg

theorem cov_colon : Cov (span (chr ':')) (fun x => [⟨x, "colon", []⟩]) (fun _ => [word "colon" ":"]) :=
  cov_chr "colon" ":" ':' rfl (by decide) (by decide)

theorem cov_equal : Cov (span (chr '=')) (fun x => [⟨x, "equal", []⟩]) (fun _ => [word "equal" "="]) :=
  cov_chr "equal" "=" '=' rfl (by decide) (by decide)

theorem cov_semicolon : Cov (span (chr ';')) (fun x => [⟨x, "semicolon", []⟩]) (fun _ => [word "semicolon" ";"]) :=
  cov_chr "semicolon" ";" ';' rfl (by decide) (by decide)

theorem cov_parseNamedField : Cov Spanned.parseNamedField visitNamedField (fun f => namedFieldItems f.erase) := by
  intro s f r e
  obtain ⟨comment, m, h1, e1⟩ := bind_eq_ok e
  obtain ⟨⟨⟨name, colon, ty, id⟩, sp1⟩, m1, h2, e2⟩ := bind_eq_ok e1
  obtain ⟨rfl, rfl⟩ := pure_eq_ok e2
  obtain ⟨h3, _⟩ := withSpan_eq_ok h2
  simp only at h3
  obtain ⟨_, m2, h4, e4⟩ := bind_eq_ok h3
  obtain ⟨_, m3, h5, e5⟩ := bind_eq_ok e4
  obtain ⟨_, m4, h6, e6⟩ := bind_eq_ok e5
  obtain ⟨_, m5, h7, e7⟩ := bind_eq_ok e6
  obtain ⟨e8, rfl⟩ := pure_eq_ok e7
  cases e8
  have := (cov_ws cov_parseComments h1).append ((cov_sp (cov_segment "property" ["declaration"] (by decide)) h4).append
    ((cov_sp cov_colon h5).append ((cov_sp cov_parseType h6).append (cov_optId h7))))
  simpa [visitNamedField, namedFieldItems, NamedField.erase, declared] using this

theorem cov_parseUnnamedField : Cov Spanned.parseUnnamedField visitUnnamedField (fun f => unnamedFieldItems f.erase) := by
  intro s f r e
  obtain ⟨⟨⟨ty, id⟩, sp1⟩, m1, h2, e2⟩ := bind_eq_ok e
  obtain ⟨rfl, rfl⟩ := pure_eq_ok e2
  obtain ⟨h3, _⟩ := withSpan_eq_ok h2
  simp only at h3
  obtain ⟨_, m4, h6, e6⟩ := bind_eq_ok h3
  obtain ⟨_, m5, h7, e7⟩ := bind_eq_ok e6
  obtain ⟨e8, rfl⟩ := pure_eq_ok e7
  cases e8
  exact (cov_ws cov_parseType h6).append (cov_optId h7)

theorem peekAny_eq_ok {s r : Text} {c : Char} (h : peekAny s = .ok c r) : r = s := by
  cases s with
  | nil => cases h
  | cons d s => injection h with _ h; exact h.symm

theorem cov_parseFields : Cov Spanned.parseFields visitFields (fun f => fieldsItems f.erase) := by
  intro s f r e
  obtain ⟨c, m, h1, e1⟩ := bind_eq_ok e
  have hm := peekAny_eq_ok h1
  subst hm
  by_cases hc : c = '{'
  · rw [if_pos hc] at e1
    obtain ⟨d, m1, h2, e2⟩ := bind_eq_ok e1
    obtain ⟨rfl, rfl⟩ := pure_eq_ok e2
    have := cov_braces (cov_commaList cov_parseNamedField) h2
    simpa [visitFields, fieldsItems, Fields.erase, Function.comp_def] using this
  rw [if_neg hc] at e1
  by_cases hc' : c = '('
  · rw [if_pos hc'] at e1
    obtain ⟨d, m1, h2, e2⟩ := bind_eq_ok e1
    obtain ⟨rfl, rfl⟩ := pure_eq_ok e2
    have := cov_parens (cov_commaList cov_parseUnnamedField) h2
    simpa [visitFields, fieldsItems, Fields.erase, Function.comp_def] using this
  rw [if_neg hc'] at e1
  obtain ⟨rfl, rfl⟩ := pure_eq_ok e1
  exact .nil List.suffix_rfl

theorem cov_surround_inner {o c : Char} (h : Cov p calls items) :
    Cov (Spanned.surround o c p) (fun d => calls d.inner) (fun d => items d.inner) := by
  intro s d r e
  obtain ⟨x, m, h1, e1⟩ := bind_eq_ok e
  obtain ⟨a, m1, h2, e2⟩ := bind_eq_ok (cutErr_ok.1 e1)
  obtain ⟨y, m2, h3, e3⟩ := bind_eq_ok e2
  obtain ⟨rfl, rfl⟩ := pure_eq_ok e3
  exact ((h h2).pre (suf_span (suf_chr _) h1)).post (suf_ws (suf_span (suf_chr _)) h3)

theorem cov_parseGenerics : Cov Spanned.parseGenerics visitGenerics
    (fun g => genericsItems (eraseGenerics g).1 (eraseGenerics g).2) := by
  intro s g r e
  have := cov_opt (cov_surround_inner (o := '<') (c := '>') (cov_commaList (cov_ws (cov_camel "typeParameter" ["declaration"] (by decide))))) e
  cases g with
  | none => exact this
  | some d => simpa [visitGenerics, genericsItems, eraseGenerics, Punctuated.erase, declared, Function.comp_def] using this

theorem cov_space1 : Cov space1 (fun _ => []) (fun _ => []) := cov_suf (suf_takeWhile _ _)

theorem cov_parseStruct : Cov Spanned.parseStruct visitStruct (fun x => definitionItems std (.struct x.erase)) := by
  intro s x r e
  obtain ⟨keyword, m1, h1, e1⟩ := bind_eq_ok e
  obtain ⟨_, m2, h2, e2⟩ := bind_eq_ok e1
  obtain ⟨name, m3, h3, e3⟩ := bind_eq_ok (cutErr_ok.1 e2)
  obtain ⟨g, m4, h4, e4⟩ := bind_eq_ok e3
  obtain ⟨f, m5, h5, e5⟩ := bind_eq_ok e4
  obtain ⟨rfl, rfl⟩ := pure_eq_ok e5
  have := (cov_lit "keyword" "struct" [] (by decide) (by decide) (by decide) h1).append ((cov_space1 h2).append
    ((cov_camel "struct" ["declaration"] (by decide) h3).append ((cov_parseGenerics h4).append (cov_sp cov_parseFields h5))))
  simpa [visitStruct, visitComment, definitionItems, Struct.erase, declared] using this

theorem cov_parseVariant : Cov Spanned.parseVariant visitVariant (fun v => variantItems v.erase) := by
  intro s f r e
  obtain ⟨comment, m, h1, e1⟩ := bind_eq_ok e
  obtain ⟨⟨⟨name, fields, id⟩, sp1⟩, m1, h2, e2⟩ := bind_eq_ok e1
  obtain ⟨rfl, rfl⟩ := pure_eq_ok e2
  obtain ⟨h3, _⟩ := withSpan_eq_ok h2
  simp only at h3
  obtain ⟨_, m2, h4, e4⟩ := bind_eq_ok h3
  obtain ⟨_, m3, h5, e5⟩ := bind_eq_ok e4
  obtain ⟨_, m5, h7, e7⟩ := bind_eq_ok e5
  obtain ⟨e8, rfl⟩ := pure_eq_ok e7
  cases e8
  have := (cov_ws cov_parseComments h1).append ((cov_sp (cov_camel "enumMember" ["declaration"] (by decide)) h4).append
    ((cov_sp cov_parseFields h5).append (cov_optId h7)))
  simpa [visitVariant, variantItems, Variant.erase, declared] using this

theorem cov_parseEnum : Cov Spanned.parseEnum visitEnum (fun x => definitionItems std (.enum x.erase)) := by
  intro s x r e
  obtain ⟨keyword, m1, h1, e1⟩ := bind_eq_ok e
  obtain ⟨_, m2, h2, e2⟩ := bind_eq_ok e1
  obtain ⟨name, m3, h3, e3⟩ := bind_eq_ok (cutErr_ok.1 e2)
  obtain ⟨g, m4, h4, e4⟩ := bind_eq_ok e3
  obtain ⟨f, m5, h5, e5⟩ := bind_eq_ok e4
  obtain ⟨rfl, rfl⟩ := pure_eq_ok e5
  have := (cov_lit "keyword" "enum" [] (by decide) (by decide) (by decide) h1).append ((cov_space1 h2).append
    ((cov_camel "enum" ["declaration"] (by decide) h3).append ((cov_parseGenerics h4).append
      (cov_sp (cov_braces (cov_commaList cov_parseVariant)) h5))))
  simpa [visitEnum, visitComment, definitionItems, Enum.erase, declared, Punctuated.erase, Function.comp_def] using this

theorem cov_parseAlias : Cov Spanned.parseAlias visitAlias (fun x => definitionItems std (.typeAlias x.erase)) := by
  intro s x r e
  obtain ⟨keyword, m1, h1, e1⟩ := bind_eq_ok e
  obtain ⟨_, m2, h2, e2⟩ := bind_eq_ok e1
  obtain ⟨name, m3, h3, e3⟩ := bind_eq_ok (cutErr_ok.1 e2)
  obtain ⟨g, m4, h4, e4⟩ := bind_eq_ok e3
  obtain ⟨eq, m5, h5, e5⟩ := bind_eq_ok e4
  obtain ⟨t, m6, h6, e6⟩ := bind_eq_ok e5
  obtain ⟨c, m7, h7, e7⟩ := bind_eq_ok e6
  obtain ⟨rfl, rfl⟩ := pure_eq_ok e7
  have := (cov_lit "keyword" "type" [] (by decide) (by decide) (by decide) h1).append ((cov_space1 h2).append
    ((cov_camel "typeAlias" ["declaration"] (by decide) h3).append ((cov_parseGenerics h4).append
      ((cov_sp cov_equal h5).append ((cov_sp cov_parseType h6).append (cov_sp cov_semicolon h7))))))
  simpa [visitAlias, visitComment, definitionItems, TypeAlias.erase, declared] using this

theorem cov_literal (std : Std) : Cov (withSpan (parseLiteral std)) (fun x => visitLiteral x.1 x.2)
    (fun x => literalItems std x.1) := by
  intro s x r e
  obtain ⟨h1, h2⟩ := withSpan_eq_ok e
  obtain ⟨l, sp1⟩ := x
  simp only at h1 h2
  subst h2
  cases l with
  | string _ => exact .nil (suf_parseLiteral std h1)
  | bytes _ => exact .nil (suf_parseLiteral std h1)
  | bool b =>
    obtain ⟨v, rfl, h3, h4, h5⟩ := literal_slice std h1 (.inl ⟨_, rfl⟩)
    exact .one h3 h4 h5
  | int b =>
    obtain ⟨v, rfl, h3, h4, h5⟩ := literal_slice std h1 (.inr (.inl ⟨_, rfl⟩))
    exact .one h3 h4 h5
  | float b =>
    obtain ⟨v, rfl, h3, h4, h5⟩ := literal_slice std h1 (.inr (.inr ⟨_, rfl⟩))
    exact .one h3 h4 h5

theorem cov_parseConst (std : Std) : Cov (Spanned.parseConst std) visitConst (fun x => definitionItems std (.const x.erase)) := by
  intro s x r e
  obtain ⟨keyword, m1, h1, e1⟩ := bind_eq_ok e
  obtain ⟨_, m2, h2, e2⟩ := bind_eq_ok e1
  obtain ⟨name, m3, h3, e3⟩ := bind_eq_ok (cutErr_ok.1 e2)
  obtain ⟨colon, m4, h4, e4⟩ := bind_eq_ok e3
  obtain ⟨ty, m5, h5, e5⟩ := bind_eq_ok e4
  obtain ⟨eq, m6, h6, e6⟩ := bind_eq_ok e5
  obtain ⟨l, m7, h7, e7⟩ := bind_eq_ok e6
  obtain ⟨c, m8, h8, e8⟩ := bind_eq_ok e7
  obtain ⟨rfl, rfl⟩ := pure_eq_ok e8
  have := (cov_lit "keyword" "const" [] (by decide) (by decide) (by decide) h1).append ((cov_space1 h2).append
    ((cov_name "variable" ["declaration", "static", "constant"] (by decide) (by decide) (by decide) h3).append ((cov_colon h4).append
      ((cov_sp cov_parseType h5).append ((cov_sp cov_equal h6).append ((cov_sp (cov_literal std) h7).append
        (cov_semicolon h8)))))))
  simpa [visitConst, visitComment, definitionItems, Const.erase, declared] using this

theorem cov_parseImport : Cov Spanned.parseImport visitImport (fun x => definitionItems std (.import x.erase)) := by
  intro s x r e
  obtain ⟨keyword, m1, h1, e1⟩ := bind_eq_ok e
  obtain ⟨_, m2, h2, e2⟩ := bind_eq_ok e1
  obtain ⟨segs, m3, h3, e3⟩ := bind_eq_ok (cutErr_ok.1 e2)
  obtain ⟨el, m4, h4, e4⟩ := bind_eq_ok e3
  obtain ⟨c, m5, h5, e5⟩ := bind_eq_ok e4
  obtain ⟨rfl, rfl⟩ := pure_eq_ok e5
  have c1 : Cov (do let colons ← span (lit "::"); let name ← alt (named parseCamel) (named parseCamel); pure (colons, name))
      (fun x : Span × Name => [⟨x.1, "doubleColon", []⟩, ⟨x.2.span, "type", []⟩])
      (fun x => [word "doubleColon" "::", word "type" x.2.value]) := by
    intro s x r e
    obtain ⟨_, m1, h1, e1⟩ := bind_eq_ok e
    obtain ⟨_, m2, h2, e2⟩ := bind_eq_ok e1
    obtain ⟨rfl, rfl⟩ := pure_eq_ok e2
    exact (cov_lit "doubleColon" "::" [] (by decide) (by decide) (by decide) h1).append
      (cov_alt (cov_camel "type" [] (by decide)) (cov_camel "type" [] (by decide)) h2)
  have := ((cov_lit "keyword" "use" [] (by decide) (by decide) (by decide) h1).append ((cov_space1 h2).append
    ((cov_separated1 (cov_segment "namespace" [] (by decide)) (suf_span (suf_lit _)) h3).append (cov_opt c1 h4)))).post
      (suf_span (suf_chr _) h5)
  cases el with
  | none => simpa [visitImport, definitionItems, Import.erase, ← List.map_eq_flatMap, Function.comp_def] using this
  | some el => simpa [visitImport, definitionItems, Import.erase, ← List.map_eq_flatMap, Function.comp_def] using this

theorem visitDefinitions_eq : ∀ ds : List Spanned.Definition, visitDefinitions ds = ds.flatMap visitDefinition
  | [] => by simp only [visitDefinitions, List.flatMap_nil]
  | d :: ds => by simp only [visitDefinitions, visitDefinitions_eq ds, List.flatMap_cons]

theorem definitionsItems_eq (std : Std) : ∀ ds : List Ast.Definition, definitionsItems std ds = ds.flatMap (definitionItems std)
  | [] => by simp only [definitionsItems, List.flatMap_nil]
  | d :: ds => by simp only [definitionsItems, definitionsItems_eq std ds, List.flatMap_cons]

/-- The calls of a definition before its comment and attributes are known. -/
def CommentFree : Spanned.Definition → Prop
  | .module c _ _ _ _ _ => c = []
  | .struct s => s.comment = []
  | .enum e => e.comment = []
  | .typeAlias a => a.comment = []
  | .const c => c.comment = []
  | .import _ => True

theorem cov_parseModule {std : Std} {rec : P Spanned.Definition}
    (hr : Cov rec visitDefinition fun d => definitionItems std d.erase) :
    Cov (Spanned.parseModule rec) visitDefinition (fun d => definitionItems std d.erase) := by
  intro s x r e
  obtain ⟨keyword, m1, h1, e1⟩ := bind_eq_ok e
  obtain ⟨_, m2, h2, e2⟩ := bind_eq_ok e1
  obtain ⟨name, m3, h3, e3⟩ := bind_eq_ok (cutErr_ok.1 e2)
  obtain ⟨d, m4, h4, e4⟩ := bind_eq_ok e3
  obtain ⟨rfl, rfl⟩ := pure_eq_ok e4
  have := (cov_lit "keyword" "mod" [] (by decide) (by decide) (by decide) h1).append ((cov_space1 h2).append
    ((cov_segment "namespace" ["declaration"] (by decide) h3).append
      (cov_sp (cov_braces (cov_many (cov_ws hr))) h4)))
  simpa [visitDefinition, visitDefinitions_eq, visitComment, definitionItems, definitionsItems_eq, Definition.erase, declared,
    List.flatMap_map] using this

theorem cov_defKind {std : Std} {rec : P Spanned.Definition}
    (hr : Cov rec visitDefinition fun d => definitionItems std d.erase) :
    Cov (Spanned.defKind std rec) visitDefinition (fun d => definitionItems std d.erase) := by
  intro s x r e
  obtain ⟨c, m, h1, e1⟩ := bind_eq_ok e
  have hm := peekAny_eq_ok h1
  subst hm
  clear e
  by_cases hc : c = 'm'
  · rw [if_pos hc] at e1; exact cov_parseModule hr e1
  rw [if_neg hc] at e1; clear hc
  by_cases hc : c = 's'
  · rw [if_pos hc] at e1
    obtain ⟨d, m1, h2, e2⟩ := bind_eq_ok e1
    obtain ⟨rfl, rfl⟩ := pure_eq_ok e2
    simpa only [visitDefinition, Definition.erase] using cov_parseStruct h2
  rw [if_neg hc] at e1; clear hc
  by_cases hc : c = 'e'
  · rw [if_pos hc] at e1
    obtain ⟨d, m1, h2, e2⟩ := bind_eq_ok e1
    obtain ⟨rfl, rfl⟩ := pure_eq_ok e2
    simpa only [visitDefinition, Definition.erase] using cov_parseEnum h2
  rw [if_neg hc] at e1; clear hc
  by_cases hc : c = 'c'
  · rw [if_pos hc] at e1
    obtain ⟨d, m1, h2, e2⟩ := bind_eq_ok e1
    obtain ⟨rfl, rfl⟩ := pure_eq_ok e2
    simpa only [visitDefinition, Definition.erase] using cov_parseConst std h2
  rw [if_neg hc] at e1; clear hc
  by_cases hc : c = 't'
  · rw [if_pos hc] at e1
    obtain ⟨d, m1, h2, e2⟩ := bind_eq_ok e1
    obtain ⟨rfl, rfl⟩ := pure_eq_ok e2
    simpa only [visitDefinition, Definition.erase] using cov_parseAlias h2
  rw [if_neg hc] at e1; clear hc
  by_cases hc : c = 'u'
  · rw [if_pos hc] at e1
    obtain ⟨d, m1, h2, e2⟩ := bind_eq_ok e1
    obtain ⟨rfl, rfl⟩ := pure_eq_ok e2
    simpa only [visitDefinition, Definition.erase] using cov_parseImport h2
  rw [if_neg hc] at e1; cases e1

theorem commentFree_defKind {std : Std} {rec : P Spanned.Definition} {s r : Text} {d : Spanned.Definition}
    (e : Spanned.defKind std rec s = .ok d r) : CommentFree d := by
  obtain ⟨c, m, _, e1⟩ := bind_eq_ok e
  clear e
  by_cases hc : c = 'm'
  · rw [if_pos hc] at e1
    obtain ⟨_, _, _, e2⟩ := bind_eq_ok e1
    obtain ⟨_, _, _, e3⟩ := bind_eq_ok e2
    obtain ⟨_, _, _, e4⟩ := bind_eq_ok (cutErr_ok.1 e3)
    obtain ⟨_, _, _, e5⟩ := bind_eq_ok e4
    rw [← (pure_eq_ok e5).1]; rfl
  rw [if_neg hc] at e1; clear hc
  by_cases hc : c = 's'
  · rw [if_pos hc] at e1
    obtain ⟨_, _, e0, e2⟩ := bind_eq_ok e1
    rw [← (pure_eq_ok e2).1]
    obtain ⟨_, _, _, e2⟩ := bind_eq_ok e0
    obtain ⟨_, _, _, e3⟩ := bind_eq_ok e2
    obtain ⟨_, _, _, e4⟩ := bind_eq_ok (cutErr_ok.1 e3)
    obtain ⟨_, _, _, e5⟩ := bind_eq_ok e4
    obtain ⟨_, _, _, e6⟩ := bind_eq_ok e5
    rw [← (pure_eq_ok e6).1]; rfl
  rw [if_neg hc] at e1; clear hc
  by_cases hc : c = 'e'
  · rw [if_pos hc] at e1
    obtain ⟨_, _, e0, e2⟩ := bind_eq_ok e1
    rw [← (pure_eq_ok e2).1]
    obtain ⟨_, _, _, e2⟩ := bind_eq_ok e0
    obtain ⟨_, _, _, e3⟩ := bind_eq_ok e2
    obtain ⟨_, _, _, e4⟩ := bind_eq_ok (cutErr_ok.1 e3)
    obtain ⟨_, _, _, e5⟩ := bind_eq_ok e4
    obtain ⟨_, _, _, e6⟩ := bind_eq_ok e5
    rw [← (pure_eq_ok e6).1]; rfl
  rw [if_neg hc] at e1; clear hc
  by_cases hc : c = 'c'
  · rw [if_pos hc] at e1
    obtain ⟨_, _, e0, e2⟩ := bind_eq_ok e1
    rw [← (pure_eq_ok e2).1]
    obtain ⟨_, _, _, e2⟩ := bind_eq_ok e0
    obtain ⟨_, _, _, e3⟩ := bind_eq_ok e2
    obtain ⟨_, _, _, e4⟩ := bind_eq_ok (cutErr_ok.1 e3)
    obtain ⟨_, _, _, e5⟩ := bind_eq_ok e4
    obtain ⟨_, _, _, e6⟩ := bind_eq_ok e5
    obtain ⟨_, _, _, e7⟩ := bind_eq_ok e6
    obtain ⟨_, _, _, e8⟩ := bind_eq_ok e7
    obtain ⟨_, _, _, e9⟩ := bind_eq_ok e8
    rw [← (pure_eq_ok e9).1]; rfl
  rw [if_neg hc] at e1; clear hc
  by_cases hc : c = 't'
  · rw [if_pos hc] at e1
    obtain ⟨_, _, e0, e2⟩ := bind_eq_ok e1
    rw [← (pure_eq_ok e2).1]
    obtain ⟨_, _, _, e2⟩ := bind_eq_ok e0
    obtain ⟨_, _, _, e3⟩ := bind_eq_ok e2
    obtain ⟨_, _, _, e4⟩ := bind_eq_ok (cutErr_ok.1 e3)
    obtain ⟨_, _, _, e5⟩ := bind_eq_ok e4
    obtain ⟨_, _, _, e6⟩ := bind_eq_ok e5
    obtain ⟨_, _, _, e7⟩ := bind_eq_ok e6
    obtain ⟨_, _, _, e8⟩ := bind_eq_ok e7
    rw [← (pure_eq_ok e8).1]; rfl
  rw [if_neg hc] at e1; clear hc
  by_cases hc : c = 'u'
  · rw [if_pos hc] at e1
    obtain ⟨_, _, e0, e2⟩ := bind_eq_ok e1
    rw [← (pure_eq_ok e2).1]; trivial
  rw [if_neg hc] at e1; cases e1

theorem cover_withComment {std : Std} {s m m' r : Text} {comment : List Name} {attrs : List Ast.Attribute}
    {d : Spanned.Definition} (hc : Cover s m (visitComment comment) ((comment.map Name.value).map commentItem))
    (hm : m' <:+ m) (hd : Cover m' r (visitDefinition d) (definitionItems std d.erase)) (hf : CommentFree d) :
    Cover s r (visitDefinition (Spanned.withAttributes (Spanned.withComment d comment) attrs))
      (definitionItems std (Spanned.withAttributes (Spanned.withComment d comment) attrs).erase) := by
  have := (hc.post hm).append hd
  cases d with
  | module c k n o ds cl =>
    simp only [CommentFree] at hf; subst hf
    simpa [Spanned.withAttributes, Spanned.withComment, visitDefinition, Definition.erase, definitionItems, visitComment] using this
  | struct x =>
    have e : visitComment x.comment = [] ∧ x.comment.map Name.value = [] := by
      simp only [CommentFree] at hf; rw [hf]; exact ⟨rfl, rfl⟩
    simpa [Spanned.withAttributes, Spanned.withComment, visitDefinition, Definition.erase, definitionItems, visitStruct,
      Struct.erase, e.1, e.2] using this
  | enum x =>
    have e : visitComment x.comment = [] ∧ x.comment.map Name.value = [] := by
      simp only [CommentFree] at hf; rw [hf]; exact ⟨rfl, rfl⟩
    simpa [Spanned.withAttributes, Spanned.withComment, visitDefinition, Definition.erase, definitionItems, visitEnum,
      Enum.erase, e.1, e.2] using this
  | typeAlias x =>
    have e : visitComment x.comment = [] ∧ x.comment.map Name.value = [] := by
      simp only [CommentFree] at hf; rw [hf]; exact ⟨rfl, rfl⟩
    simpa [Spanned.withAttributes, Spanned.withComment, visitDefinition, Definition.erase, definitionItems, visitAlias,
      TypeAlias.erase, e.1, e.2] using this
  | const x =>
    have e : visitComment x.comment = [] ∧ x.comment.map Name.value = [] := by
      simp only [CommentFree] at hf; rw [hf]; exact ⟨rfl, rfl⟩
    simpa [Spanned.withAttributes, Spanned.withComment, visitDefinition, Definition.erase, definitionItems, visitConst,
      Const.erase, e.1, e.2] using this
  | «import» x => exact hd.pre (hm.trans hc.suffix)

theorem cov_defDepth (std : Std) : ∀ n, Cov (Spanned.defDepth std n) visitDefinition (fun d => definitionItems std d.erase)
  | 0 => fun h => by cases h
  | n + 1 => fun e => by
    obtain ⟨c, m1, h1, e1⟩ := bind_eq_ok e
    obtain ⟨a, m2, h2, e2⟩ := bind_eq_ok e1
    obtain ⟨x, m3, h3, e3⟩ := bind_eq_ok e2
    obtain ⟨rfl, rfl⟩ := pure_eq_ok e3
    have hf : CommentFree x := by rw [sp_run] at h3; exact commentFree_defKind h3
    exact cover_withComment (cov_ws cov_parseComments h1) (suf_ws (suf_parseAttributes std) h2)
      (cov_sp (cov_defKind (cov_defDepth std n)) h3) hf

theorem cov_parseDefinition (std : Std) : Cov (Spanned.parseDefinition std) visitDefinition
    (fun d => definitionItems std d.erase) := fun h => cov_defDepth std _ h

theorem cover_schema {std : Std} {text : Text} {s : Spanned.Schema} (h : Spanned.parseSchema std text = some s) :
    Cover text [] (visitDefinitions s.definitions) (definitionsItems std s.erase.definitions) := by
  unfold Spanned.parseSchema at h
  cases e : Spanned.schemaParser std text with
  | back => rw [e] at h; cases h
  | cut => rw [e] at h; cases h
  | ok a r =>
    rw [e] at h
    cases r with
    | cons c r => cases h
    | nil =>
      injection h with h
      subst h
      obtain ⟨c, m1, h1, e1⟩ := bind_eq_ok e
      obtain ⟨ds, m2, h2, e2⟩ := bind_eq_ok e1
      obtain ⟨_, m3, h3, e3⟩ := bind_eq_ok e2
      obtain ⟨rfl, rfl⟩ := pure_eq_ok e3
      have c1 := (cov_many (cov_parseDefinition std) h2).post (suf_takeWhile _ _ h3)
      have c2 : m1 <:+ text := by
        refine suf_opt (suf_bind (suf_ws fun h => (cov_parseComments h).suffix) fun _ => suf_bind (suf_chr _) fun _ => suf_pure _) h1
      have := c1.pre c2
      simpa [visitDefinitions_eq, definitionsItems_eq, Schema.erase, List.flatMap_map] using this

end Mabo.Lsp
