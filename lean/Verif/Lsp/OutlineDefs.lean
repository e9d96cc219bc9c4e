import Verif.Lsp.OutlineCover
/-! Where the parts of definitions are in the text. -/
namespace Mabo.Lsp
open Mabo.Parse Mabo.Spanned Mabo.Spec Mabo.Spec.Doc

/-! ### Types begin and end where their parser did -/

/-- For a parser. -/
def TightP {α : Type} (p : P α) (calls : α → List Call) : Prop := ∀ {s a r}, p s = .ok a r → Tight s r (calls a)

theorem tight_alt {α : Type} {p q : P α} {calls : α → List Call} (h : TightP p calls) (h' : TightP q calls) :
    TightP (alt p q) calls := fun e => by
  rcases alt_eq_ok e with e | ⟨_, e⟩
  · exact h e
  · exact h' e

theorem surround_spans {α : Type} {p : P α} {o c : Char} {s r : Text} {d : Delimited α}
    (h : Spanned.surround o c p s = .ok d r) : d.opening.start = s ∧ d.closing.stop = r := by
  obtain ⟨x, m, h1, e1⟩ := bind_eq_ok h
  obtain ⟨a, m1, h2, e2⟩ := bind_eq_ok (cutErr_ok.1 e1)
  obtain ⟨y, m2, h3, e3⟩ := bind_eq_ok e2
  obtain ⟨rfl, rfl⟩ := pure_eq_ok e3
  rw [ws_run] at h3
  exact ⟨by rw [(span_eq_ok h1).2], by rw [(span_eq_ok h3).2]⟩

theorem tight_parseBasic : TightP Spanned.parseBasic visitType := by
  intro s t r e
  obtain ⟨⟨p, sp1⟩, m, h1, e1⟩ := bind_eq_ok e
  obtain ⟨rfl, rfl⟩ := pure_eq_ok e1
  obtain ⟨_, h3⟩ := withSpan_eq_ok h1
  simp only at h3
  subst h3
  simp only [visitType]
  exact ⟨⟨_, rfl, rfl⟩, _, rfl, rfl⟩

theorem tight_parseSingle {rec : P Ty} {k : Single} {s m r : Text} {t : Ty}
    (h : Spanned.parseSingle rec k ⟨s, m⟩ m = .ok t r) : Tight s r (visitType t) := by
  obtain ⟨d, m1, h1, h2⟩ := bind_eq_ok h
  obtain ⟨rfl, rfl⟩ := pure_eq_ok h2
  obtain ⟨_, h4⟩ := surround_spans (cutErr_ok.1 h1)
  simp only [visitType]
  exact ⟨⟨_, rfl, rfl⟩, ⟨d.closing, "angle", []⟩, by simp [List.getLast?_append, List.getLast?_cons], h4⟩

theorem tight_parsePair {rec : P Ty} {s m r : Text} {t : Ty}
    (h : Spanned.parsePair rec ⟨s, m⟩ m = .ok t r) : Tight s r (visitType t) := by
  obtain ⟨d, m1, h1, h2⟩ := bind_eq_ok h
  obtain ⟨rfl, rfl⟩ := pure_eq_ok h2
  obtain ⟨_, h4⟩ := surround_spans (cutErr_ok.1 h1)
  simp only [visitType]
  exact ⟨⟨_, rfl, rfl⟩, ⟨d.closing, "angle", []⟩, by simp [List.getLast?_append, List.getLast?_cons], h4⟩

theorem tight_parseGeneric {rec : P Ty} : TightP (Spanned.parseGeneric rec) visitType := by
  intro s t r e
  obtain ⟨⟨w, sp1⟩, m, h1, e1⟩ := bind_eq_ok e
  obtain ⟨_, h3⟩ := withSpan_eq_ok h1
  simp only at h3
  subst h3
  simp only at e1
  split at e1
  · exact tight_parseSingle e1
  split at e1
  · exact tight_parsePair e1
  split at e1
  · exact tight_parseSingle e1
  split at e1
  · exact tight_parseSingle e1
  split at e1
  · exact tight_parseSingle e1
  · cases e1

theorem tight_parseTuple {rec : P Ty} : TightP (Spanned.parseTuple rec) visitType := by
  intro s t r e
  obtain ⟨d, m, h1, e1⟩ := bind_eq_ok e
  obtain ⟨rfl, rfl⟩ := pure_eq_ok e1
  obtain ⟨h3, h4⟩ := surround_spans h1
  simp only [visitType]
  exact ⟨⟨_, rfl, h3⟩, ⟨d.closing, "parenthesis", []⟩, by simp [List.getLast?_append, List.getLast?_cons], h4⟩

theorem tight_parseArray {rec : P Ty} : TightP (Spanned.parseArray rec) visitType := by
  intro s t r e
  obtain ⟨d, m, h1, e1⟩ := bind_eq_ok e
  obtain ⟨rfl, rfl⟩ := pure_eq_ok e1
  obtain ⟨h3, h4⟩ := surround_spans h1
  simp only [visitType]
  exact ⟨⟨_, rfl, h3⟩, ⟨d.closing, "bracket", []⟩, by simp [List.getLast?_append, List.getLast?_cons], h4⟩

theorem tight_parseExternal {rec : P Ty} : TightP (Spanned.parseExternal rec) visitType := by
  intro s t r e
  obtain ⟨path, m1, h1, e1⟩ := bind_eq_ok e
  obtain ⟨name, m2, h2, e2⟩ := bind_eq_ok e1
  obtain ⟨g, m3, h3, e3⟩ := bind_eq_ok e2
  obtain ⟨_, hn⟩ := named_eq_ok h2
  -- the first call
  have hh : ∃ c cs, visitPath (path.getD []) ++ [⟨name.span, "type", []⟩] = c :: cs ∧ c.span.start = s := by
    rcases opt_eq_ok h1 with ⟨p, rfl, h4⟩ | ⟨rfl, rfl, _⟩
    · obtain ⟨a, m, h5, h6⟩ := bind_eq_ok h4
      obtain ⟨as, m', _, h7⟩ := bind_eq_ok h6
      obtain ⟨rfl, rfl⟩ := pure_eq_ok h7
      obtain ⟨n, m4, h8, h9⟩ := bind_eq_ok h5
      obtain ⟨c, m5, h10, h11⟩ := bind_eq_ok h9
      obtain ⟨rfl, rfl⟩ := pure_eq_ok h11
      exact ⟨_, _, rfl, by rw [(named_eq_ok h8).2]⟩
    · exact ⟨_, _, rfl, by rw [hn]⟩
  obtain ⟨c0, cs0, hh1, hh2⟩ := hh
  rcases opt_eq_ok h3 with ⟨d, rfl, h4⟩ | ⟨rfl, rfl, _⟩
  · obtain ⟨rfl, rfl⟩ := pure_eq_ok e3
    obtain ⟨_, h6⟩ := surround_spans h4
    simp only [visitType, hh1]
    exact ⟨⟨c0, by simp, hh2⟩, ⟨d.closing, "angle", []⟩, by simp [List.getLast?_append, List.getLast?_cons], h6⟩
  · obtain ⟨rfl, rfl⟩ := pure_eq_ok e3
    refine ⟨⟨c0, by simp [visitType, hh1], hh2⟩, ⟨name.span, "type", []⟩, ?_, by rw [hn]⟩
    simp [visitType, visitTypes, List.getLast?_append, List.getLast?_cons]

theorem tight_parseType : TightP Spanned.parseType visitType := by
  have : ∀ n, TightP (Spanned.typeDepth n) visitType := by
    intro n
    cases n with
    | zero => intro s a r h; cases h
    | succ n => exact tight_alt tight_parseBasic <| tight_alt tight_parseGeneric <| tight_alt tight_parseTuple <|
        tight_alt tight_parseArray tight_parseExternal
  intro s a r h; exact this _ h

theorem loc_unnamedField (i : Nat) : Loc Spanned.parseUnnamedField (fun f => [(f.span, unnamedFieldPart f.erase i)])
    (fun f => [unnamedFieldPart f.erase i]) := by
  intro s f r e
  have hcov := cov_parseUnnamedField e
  obtain ⟨⟨⟨ty, id⟩, sp1⟩, m1, h2, e2⟩ := bind_eq_ok e
  obtain ⟨rfl, rfl⟩ := pure_eq_ok e2
  obtain ⟨h3, h3'⟩ := withSpan_eq_ok h2
  simp only at h3 h3'
  subst h3'
  obtain ⟨_, m4, h6, e6⟩ := bind_eq_ok h3
  obtain ⟨_, m5, h7, e7⟩ := bind_eq_ok e6
  obtain ⟨e8, rfl⟩ := pure_eq_ok e7
  cases e8
  rw [ws_run] at h6
  obtain ⟨⟨c, t1, t2⟩, t3⟩ := tight_parseType h6
  have c1 := (cov_parseType h6).append (cov_optId h7)
  have ht : Tight (s.dropWhile isMulti) m5 (visitType ty ++ visitId id) := by
    refine ⟨⟨c, by simp [t1], t2⟩, ?_⟩
    rcases opt_eq_ok h7 with ⟨i, rfl, h8⟩ | ⟨rfl, rfl, _⟩
    · rw [sp_run] at h8
      obtain ⟨⟨v, sp2⟩, m6, h9, h10⟩ := bind_eq_ok h8
      obtain ⟨rfl, rfl⟩ := pure_eq_ok h10
      have := (withSpan_eq_ok h9).2
      simp only at this
      exact ⟨⟨sp2, "identifier", []⟩, by simp [visitId, List.getLast?_append, List.getLast?_cons], by simp [this]⟩
    · simpa [visitId] using t3
  obtain ⟨u, h8, h9, h10⟩ := ht.spells c1
  have h11 : s = (s.takeWhile isMulti ++ u) ++ m5 := by
    rw [List.append_assoc, ← h8, List.takeWhile_append_dropWhile]
  refine .one h11 rfl (by simp [h9]) ⟨_, u, rfl, fun c hc => ?_, h10⟩
  have := List.all_takeWhile (p := isMulti) (l := s)
  rw [List.all_eq_true] at this
  have := this c hc
  simpa [isMulti, or_assoc] using this

/-! ### Marks -/

/-- Of a comment. -/
def commentMarks (ls : List Name) : List Mark := marksOf (visitComment ls) ((ls.map Name.value).map commentItem)

theorem loc_comment : Loc Spanned.parseComments commentMarks (fun ls => commentParts (ls.map Name.value)) := by
  intro s ls r e
  have := (cov_parseComments e).lies
  simpa [commentMarks, commentParts, Function.comp_def] using this

/-- Of a named field. -/
def namedFieldMarks (f : Spanned.NamedField) : List Mark :=
  commentMarks f.comment ++ (f.name.span, names .property f.name.value (f.comment.map Name.value) (.wireSize f.ty.erase)) ::
    (f.colon, plain (word "colon" ":")) ::
    marksOf (visitType f.ty ++ visitId f.id) (Spec.typeItems f.ty.erase ++ idItems (f.id.map Spanned.Id.value))

theorem loc_namedField : Loc Spanned.parseNamedField namedFieldMarks (fun f => namedFieldParts f.erase) := by
  intro s f r e
  obtain ⟨comment, m, h1, e1⟩ := bind_eq_ok e
  obtain ⟨⟨⟨name, colon, ty, id⟩, sp1⟩, m1, h2, e2⟩ := bind_eq_ok e1
  obtain ⟨rfl, rfl⟩ := pure_eq_ok e2
  obtain ⟨h3, _⟩ := withSpan_eq_ok h2
  simp only at h3
  obtain ⟨_, m2, h4, e4⟩ := bind_eq_ok h3
  obtain ⟨_, m3, h5, e5⟩ := bind_eq_ok e4
  obtain ⟨_, m4, h6, e6⟩ := bind_eq_ok e5
  obtain ⟨_, m5, h7, e7⟩ := bind_eq_ok e6
  obtain ⟨e8, rfl⟩ := pure_eq_ok e7
  cases e8
  have := (loc_ws loc_comment h1).append ((loc_sp (loc_name (names .property · (comment.map Name.value) (.wireSize ty.erase))
    fun _ => rfl) h4).append ((cov_sp cov_colon h5).lies.append ((cov_sp cov_parseType h6).append (cov_optId h7)).lies))
  exact this

/-- Of fields. -/
def fieldsMarks : Spanned.Fields → List Mark
  | .named d => (d.opening, plain (word "" "{")) ::
      (listMarks (fun x => namedFieldMarks x.1) d.inner.values.zipIdx d.inner.commas d.inner.last ++
        [(d.closing, plain (word "" "}"))])
  | .unnamed d => (d.opening, plain (word "" "(")) ::
      (listMarks (fun x => [(x.1.span, unnamedFieldPart x.1.erase x.2)]) d.inner.values.zipIdx d.inner.commas d.inner.last ++
        [(d.closing, plain (word "" ")"))])
  | .unit => []

theorem loc_fields : Loc Spanned.parseFields fieldsMarks (fun f => fieldsParts f.erase) := by
  intro s f r e
  obtain ⟨c, m, h1, e1⟩ := bind_eq_ok e
  have hm := peekAny_eq_ok h1
  subst hm
  by_cases hc : c = '{'
  · rw [if_pos hc] at e1
    obtain ⟨d, m1, h2, e2⟩ := bind_eq_ok e1
    obtain ⟨rfl, rfl⟩ := pure_eq_ok e2
    have := loc_surround (os := "{") (cs := "}") (loc_commaList (marks := fun x => namedFieldMarks x.1)
      (segs := fun x => namedFieldParts x.1.erase) fun _ => loc_namedField) rfl rfl h2
    simpa [fieldsMarks, fieldsParts, Fields.erase, Function.comp_def, map_zipIdx_fst (fun x : Spanned.NamedField => namedFieldParts x.erase)] using this
  rw [if_neg hc] at e1
  by_cases hc' : c = '('
  · rw [if_pos hc'] at e1
    obtain ⟨d, m1, h2, e2⟩ := bind_eq_ok e1
    obtain ⟨rfl, rfl⟩ := pure_eq_ok e2
    have := loc_surround (os := "(") (cs := ")") (loc_commaList (marks := fun x : Spanned.UnnamedField × Nat => [(x.1.span, unnamedFieldPart x.1.erase x.2)])
      (segs := fun x => [unnamedFieldPart x.1.erase x.2]) loc_unnamedField) rfl rfl h2
    simpa [fieldsMarks, fieldsParts, Fields.erase, Function.comp_def, List.zipIdx_map] using this
  rw [if_neg hc'] at e1
  obtain ⟨rfl, rfl⟩ := pure_eq_ok e1
  exact .nil List.suffix_rfl

/-- Of type parameters. -/
def genericsMarks (g : Option (Spanned.Delimited (Spanned.Punctuated Name))) : List Mark :=
  marksOf (visitGenerics g) (genericsItems (eraseGenerics g).1 (eraseGenerics g).2)

theorem loc_generics : Loc Spanned.parseGenerics genericsMarks
    (fun g => genericsParts (eraseGenerics g).1 (eraseGenerics g).2) := fun e => (cov_parseGenerics e).lies

/-- Of a struct. -/
def structMarks (s : Spanned.Struct) : List Mark :=
  commentMarks s.comment ++ (s.keyword, plain (word "keyword" "struct")) ::
    (s.name.span, names .struct s.name.value (s.comment.map Name.value) (fieldsNote s.fields.erase)) ::
    (genericsMarks s.generics ++ fieldsMarks s.fields)

theorem loc_struct {std : Std} : Loc Spanned.parseStruct structMarks (fun s => definitionParts std (.struct s.erase)) := by
  intro s x r e
  obtain ⟨keyword, m1, h1, e1⟩ := bind_eq_ok e
  obtain ⟨_, m2, h2, e2⟩ := bind_eq_ok e1
  obtain ⟨name, m3, h3, e3⟩ := bind_eq_ok (cutErr_ok.1 e2)
  obtain ⟨g, m4, h4, e4⟩ := bind_eq_ok e3
  obtain ⟨f, m5, h5, e5⟩ := bind_eq_ok e4
  obtain ⟨rfl, rfl⟩ := pure_eq_ok e5
  have := (cov_lit "keyword" "struct" [] (by decide) (by decide) (by decide) h1).lies.append ((cov_space1 h2).lies.append
    ((loc_name (names .struct · [] (fieldsNote f.erase)) (fun _ => rfl) h3).append ((loc_generics h4).append (loc_sp loc_fields h5))))
  simp only [definitionParts]
  exact this

/-- Of a variant. -/
def variantMarks (v : Spanned.Variant) : List Mark :=
  commentMarks v.comment ++
    (v.name.span, names .enumMember v.name.value (v.comment.map Name.value) (fieldsNote v.fields.erase)) ::
    (fieldsMarks v.fields ++ marksOf (visitId v.id) (idItems (v.id.map Spanned.Id.value)))

theorem loc_variant : Loc Spanned.parseVariant variantMarks (fun v => variantParts v.erase) := by
  intro s f r e
  obtain ⟨comment, m, h1, e1⟩ := bind_eq_ok e
  obtain ⟨⟨⟨name, fields, id⟩, sp1⟩, m1, h2, e2⟩ := bind_eq_ok e1
  obtain ⟨rfl, rfl⟩ := pure_eq_ok e2
  obtain ⟨h3, _⟩ := withSpan_eq_ok h2
  simp only at h3
  obtain ⟨_, m2, h4, e4⟩ := bind_eq_ok h3
  obtain ⟨_, m3, h5, e5⟩ := bind_eq_ok e4
  obtain ⟨_, m5, h7, e7⟩ := bind_eq_ok e5
  obtain ⟨e8, rfl⟩ := pure_eq_ok e7
  cases e8
  exact (loc_ws loc_comment h1).append ((loc_sp (loc_name (names .enumMember · (comment.map Name.value) (fieldsNote fields.erase))
    fun _ => rfl) h4).append ((loc_sp loc_fields h5).append (cov_optId h7).lies))

/-- Of an enum. -/
def enumMarks (e : Spanned.Enum) : List Mark :=
  commentMarks e.comment ++ (e.keyword, plain (word "keyword" "enum")) ::
    (e.name.span, names .enum e.name.value (e.comment.map Name.value) (.nextId (e.erase.variants.map (·.id)))) ::
    (genericsMarks e.generics ++ (e.variants.opening, plain (word "" "{")) ::
      (listMarks (fun x => variantMarks x.1) e.variants.inner.values.zipIdx e.variants.inner.commas e.variants.inner.last ++
        [(e.variants.closing, plain (word "" "}"))]))

theorem loc_enum {std : Std} : Loc Spanned.parseEnum enumMarks (fun s => definitionParts std (.enum s.erase)) := by
  intro s x r e
  obtain ⟨keyword, m1, h1, e1⟩ := bind_eq_ok e
  obtain ⟨_, m2, h2, e2⟩ := bind_eq_ok e1
  obtain ⟨name, m3, h3, e3⟩ := bind_eq_ok (cutErr_ok.1 e2)
  obtain ⟨g, m4, h4, e4⟩ := bind_eq_ok e3
  obtain ⟨f, m5, h5, e5⟩ := bind_eq_ok e4
  obtain ⟨rfl, rfl⟩ := pure_eq_ok e5
  have hv := loc_sp (loc_surround (os := "{") (cs := "}") (loc_commaList (marks := fun x => variantMarks x.1)
      (segs := fun x => variantParts x.1.erase) fun _ => loc_variant) rfl rfl) h5
  have := (cov_lit "keyword" "enum" [] (by decide) (by decide) (by decide) h1).lies.append ((cov_space1 h2).lies.append
    ((loc_name (names .enum · [] (.nextId ((Enum.erase ⟨[], [], keyword, name, g, f⟩).variants.map (·.id)))) (fun _ => rfl) h3).append
      ((loc_generics h4).append hv)))
  simp only [definitionParts]
  simpa [enumMarks, Enum.erase, Punctuated.erase, Function.comp_def, commentMarks, commentParts, visitComment, marksOf,
    map_zipIdx_fst (fun x : Spanned.Variant => variantParts x.erase), genericsMarks] using this

/-- Of an alias. -/
def aliasMarks (a : Spanned.TypeAlias) : List Mark :=
  commentMarks a.comment ++ (a.keyword, plain (word "keyword" "type")) ::
    (a.name.span, names .variable a.name.value (a.comment.map Name.value) .nothing) ::
    (genericsMarks a.generics ++ marksOf (⟨a.equal, "equal", []⟩ :: (visitType a.target ++ [⟨a.semicolon, "semicolon", []⟩]))
      (word "equal" "=" :: (Spec.typeItems a.target.erase ++ [word "semicolon" ";"])))

theorem loc_alias {std : Std} : Loc Spanned.parseAlias aliasMarks (fun s => definitionParts std (.typeAlias s.erase)) := by
  intro s x r e
  obtain ⟨keyword, m1, h1, e1⟩ := bind_eq_ok e
  obtain ⟨_, m2, h2, e2⟩ := bind_eq_ok e1
  obtain ⟨name, m3, h3, e3⟩ := bind_eq_ok (cutErr_ok.1 e2)
  obtain ⟨g, m4, h4, e4⟩ := bind_eq_ok e3
  obtain ⟨eq, m5, h5, e5⟩ := bind_eq_ok e4
  obtain ⟨t, m6, h6, e6⟩ := bind_eq_ok e5
  obtain ⟨c, m7, h7, e7⟩ := bind_eq_ok e6
  obtain ⟨rfl, rfl⟩ := pure_eq_ok e7
  have := (cov_lit "keyword" "type" [] (by decide) (by decide) (by decide) h1).lies.append ((cov_space1 h2).lies.append
    ((loc_name (names .variable · [] .nothing) (fun _ => rfl) h3).append ((loc_generics h4).append
      ((cov_sp cov_equal h5).append ((cov_sp cov_parseType h6).append (cov_sp cov_semicolon h7))).lies)))
  simp only [definitionParts]
  exact this

/-- Of a constant. -/
def constMarks (std : Std) (c : Spanned.Const) : List Mark :=
  commentMarks c.comment ++ (c.keyword, plain (word "keyword" "const")) ::
    (c.name.span, names .constant c.name.value (c.comment.map Name.value) .nothing) ::
    marksOf (⟨c.colon, "colon", []⟩ :: (visitType c.ty ++ ⟨c.equal, "equal", []⟩ ::
        (visitLiteral c.value c.valueSpan ++ [⟨c.semicolon, "semicolon", []⟩])))
      (word "colon" ":" :: (Spec.typeItems c.ty.erase ++ word "equal" "=" :: (literalItems std c.value ++ [word "semicolon" ";"])))

theorem loc_const (std : Std) : Loc (Spanned.parseConst std) (constMarks std) (fun s => definitionParts std (.const s.erase)) := by
  intro s x r e
  obtain ⟨keyword, m1, h1, e1⟩ := bind_eq_ok e
  obtain ⟨_, m2, h2, e2⟩ := bind_eq_ok e1
  obtain ⟨name, m3, h3, e3⟩ := bind_eq_ok (cutErr_ok.1 e2)
  obtain ⟨colon, m4, h4, e4⟩ := bind_eq_ok e3
  obtain ⟨ty, m5, h5, e5⟩ := bind_eq_ok e4
  obtain ⟨eq, m6, h6, e6⟩ := bind_eq_ok e5
  obtain ⟨l, m7, h7, e7⟩ := bind_eq_ok e6
  obtain ⟨c, m8, h8, e8⟩ := bind_eq_ok e7
  obtain ⟨rfl, rfl⟩ := pure_eq_ok e8
  have := (cov_lit "keyword" "const" [] (by decide) (by decide) (by decide) h1).lies.append ((cov_space1 h2).lies.append
    ((loc_name (names .constant · [] .nothing) (fun _ => rfl) h3).append ((cov_colon h4).append
      ((cov_sp cov_parseType h5).append ((cov_sp cov_equal h6).append ((cov_sp (cov_literal std) h7).append
        (cov_semicolon h8))))).lies))
  simp only [definitionParts]
  exact this

/-- Of an import. -/
def importMarks (i : Spanned.Import) : List Mark :=
  match i.segments with
  | [] => [(i.keyword, ⟨fun _ => False, none, none⟩)]
  | n :: ns => [(i.keyword, plain (word "keyword" "use")),
      ((importPath (n.value, n.span) (ns ++ (i.element.map (·.2)).toList)).2,
        { text := (· = (pathText i.erase).toList), symbol := some (.file, pathText i.erase) })]

theorem importPath_append (x : String × Span) (as bs : List Name) :
    importPath x (as ++ bs) = importPath (importPath x as) bs := by
  induction as generalizing x with
  | nil => rfl
  | cons a as ih => simp only [List.cons_append, importPath, ih]

theorem join_foldl (l : List String) (a : String) : l.foldl (· ++ ·) a = a ++ l.foldl (· ++ ·) "" := by
  induction l generalizing a with
  | nil => simp
  | cons b l ih => simp only [List.foldl_cons]; rw [ih, ih ("" ++ b)]; simp [String.append_assoc]

theorem join_cons (a : String) (l : List String) : String.join (a :: l) = a ++ String.join l := by
  unfold String.join
  rw [List.foldl_cons, join_foldl]; simp

theorem importPath_text (x : String × Span) (as : List Name) :
    (importPath x as).1 = x.1 ++ String.join ((as.map Name.value).map ("::" ++ ·)) := by
  induction as generalizing x with
  | nil => simp [importPath, String.join]
  | cons a as ih => simp only [importPath, ih, List.map, join_cons]; simp [String.append_assoc]

theorem importPath_step {x : String × Span} {s m m1 m2 : Text} {n : Name} {c : Span} {hd tl : Char → Bool}
    (hx : x.2 = ⟨s, m⟩) (hs : s = x.1.toList ++ m) (h1 : span (lit "::") m = .ok c m1)
    (h2 : named (Parse.name hd tl) m1 = .ok n m2) :
    (importPath x [n]).2 = ⟨s, m2⟩ ∧ s = (importPath x [n]).1.toList ++ m2 := by
  obtain ⟨⟨_, e1⟩, _⟩ := span_eq_ok h1
  obtain ⟨e2, e3⟩ := named_eq_ok h2
  obtain ⟨e4, _⟩ := name_eq_ok e2
  refine ⟨by simp [importPath, hx, e3], ?_⟩
  rw [hs, lit_eq_ok e1, e4]
  simp [importPath]

theorem importPath_many {s : Text} {hd tl : Char → Bool} : ∀ k {x : String × Span} {m r : Text} {ns : List Name},
    x.2 = ⟨s, m⟩ → s = x.1.toList ++ m →
    manyAux (do let _ ← span (lit "::"); named (Parse.name hd tl)) k m = .ok ns r →
    (importPath x ns).2 = ⟨s, r⟩ ∧ s = (importPath x ns).1.toList ++ r
  | 0, _, _, _, _, _, _, h => by cases h
  | k + 1, x, m, r, ns, hx, hs, h => by
    rcases manyAux_eq_ok h with ⟨rfl, rfl, _⟩ | ⟨n, ns', m', rfl, h1, h2⟩
    · exact ⟨hx, hs⟩
    · obtain ⟨c, m1, h3, h4⟩ := bind_eq_ok h1
      obtain ⟨a, b⟩ := importPath_step hx hs h3 h4
      have := importPath_many k (x := importPath x [n]) a b h2
      rwa [← importPath_append] at this

theorem loc_import {std : Std} : Loc Spanned.parseImport importMarks (fun i => definitionParts std (.import i.erase)) := by
  intro s x r e
  obtain ⟨keyword, m1, h1, e1⟩ := bind_eq_ok e
  obtain ⟨_, m2, h2, e2⟩ := bind_eq_ok e1
  obtain ⟨segs, m3, h3, e3⟩ := bind_eq_ok (cutErr_ok.1 e2)
  obtain ⟨el, m4, h4, e4⟩ := bind_eq_ok e3
  obtain ⟨c, m5, h5, e5⟩ := bind_eq_ok e4
  obtain ⟨rfl, rfl⟩ := pure_eq_ok e5
  obtain ⟨n, m6, h6, e6⟩ := bind_eq_ok h3
  obtain ⟨ns, m7, h7, e7⟩ := bind_eq_ok e6
  obtain ⟨rfl, rfl⟩ := pure_eq_ok e7
  obtain ⟨g1, g2⟩ := named_eq_ok h6
  obtain ⟨g3, ⟨ch, chs, g4, _⟩, _⟩ := name_eq_ok g1
  have a := importPath_many _ (x := (n.value, n.span)) g2 g3 h7
  have b : (importPath (n.value, n.span) (ns ++ (el.map (·.2)).toList)).2 = ⟨m2, m4⟩ ∧
      m2 = (importPath (n.value, n.span) (ns ++ (el.map (·.2)).toList)).1.toList ++ m4 := by
    rcases opt_eq_ok h4 with ⟨⟨cc, nn⟩, rfl, h8⟩ | ⟨rfl, rfl, _⟩
    · obtain ⟨c', m8, h9, h10⟩ := bind_eq_ok h8
      obtain ⟨n', m9, h11, h12⟩ := bind_eq_ok h10
      obtain ⟨e8, rfl⟩ := pure_eq_ok h12
      cases e8
      rw [importPath_append]
      have h11' : named parseCamel m8 = .ok nn m9 := by
        rcases alt_eq_ok h11 with h | ⟨_, h⟩ <;> exact h
      exact importPath_step a.1 a.2 h9 h11'
    · simpa using a
  have hp : (importPath (n.value, n.span) (ns ++ (el.map (·.2)).toList)).1 =
      pathText (Import.erase ⟨keyword, n :: ns, el, c⟩) := by
    rw [importPath_text]
    cases el <;> simp [pathText, Import.erase, Function.comp_def]
  have hne : (pathText (Import.erase ⟨keyword, n :: ns, el, c⟩)).toList ≠ [] := by
    rw [← hp]
    have : ∀ (l : List Name) (x : String × Span), x.1.toList ≠ [] → (importPath x l).1.toList ≠ [] := by
      intro l
      induction l with
      | nil => intro x h; exact h
      | cons y l ih => intro x h; exact ih _ (by simp)
    exact this _ _ (by simp [g4])
  simp only [definitionParts]
  have k1 := (cov_lit "keyword" "use" [] (by decide) (by decide) (by decide) h1).lies.append (cov_space1 h2).lies
  have := (k1.append (LiesAs.one (g := Segment.mk (· = (pathText (Import.erase ⟨keyword, n :: ns, el, c⟩)).toList)
    (some (.file, pathText (Import.erase ⟨keyword, n :: ns, el, c⟩))) none) (hp ▸ b.2) b.1 hne rfl)).post
      (suf_span (suf_chr _) h5)
  exact this

mutual
/-- Of a definition. -/
def definitionMarks (std : Std) : Spanned.Definition → List Mark
  | .module comment keyword name opening ds closing => commentMarks comment ++ (keyword, plain (word "keyword" "mod")) ::
      (name.span, names .module name.value (comment.map Name.value) .nothing) ::
      (opening, plain (word "" "{")) :: (definitionsMarks std ds ++ [(closing, plain (word "" "}"))])
  | .struct s => structMarks s
  | .enum e => enumMarks e
  | .typeAlias a => aliasMarks a
  | .const c => constMarks std c
  | .import i => importMarks i
/-- For all of them. -/
def definitionsMarks (std : Std) : List Spanned.Definition → List Mark
  | [] => []
  | d :: ds => definitionMarks std d ++ definitionsMarks std ds
end

theorem definitionsMarks_eq (std : Std) : ∀ ds : List Spanned.Definition,
    definitionsMarks std ds = ds.flatMap (definitionMarks std)
  | [] => by simp only [definitionsMarks, List.flatMap_nil]
  | d :: ds => by simp only [definitionsMarks, definitionsMarks_eq std ds, List.flatMap_cons]

theorem definitionsParts_eq (std : Std) : ∀ ds : List Ast.Definition,
    definitionsParts std ds = ds.flatMap (definitionParts std)
  | [] => by simp only [definitionsParts, List.flatMap_nil]
  | d :: ds => by simp only [definitionsParts, definitionsParts_eq std ds, List.flatMap_cons]

theorem loc_module {std : Std} {rec : P Spanned.Definition}
    (hr : Loc rec (definitionMarks std) fun d => definitionParts std d.erase) :
    Loc (Spanned.parseModule rec) (definitionMarks std) (fun d => definitionParts std d.erase) := by
  intro s x r e
  obtain ⟨keyword, m1, h1, e1⟩ := bind_eq_ok e
  obtain ⟨_, m2, h2, e2⟩ := bind_eq_ok e1
  obtain ⟨name, m3, h3, e3⟩ := bind_eq_ok (cutErr_ok.1 e2)
  obtain ⟨d, m4, h4, e4⟩ := bind_eq_ok e3
  obtain ⟨rfl, rfl⟩ := pure_eq_ok e4
  have := (cov_lit "keyword" "mod" [] (by decide) (by decide) (by decide) h1).lies.append ((cov_space1 h2).lies.append
    ((loc_name (names .module · [] .nothing) (fun _ => rfl) h3).append
      (loc_sp (loc_surround (os := "{") (cs := "}") (loc_many (loc_ws hr)) rfl rfl) h4)))
  simpa [definitionMarks, definitionsMarks_eq, definitionParts, definitionsParts_eq, Definition.erase, commentMarks, commentParts,
    visitComment, marksOf, List.flatMap_map] using this

theorem loc_defKind {std : Std} {rec : P Spanned.Definition}
    (hr : Loc rec (definitionMarks std) fun d => definitionParts std d.erase) :
    Loc (Spanned.defKind std rec) (definitionMarks std) (fun d => definitionParts std d.erase) := by
  intro s x r e
  obtain ⟨c, m, h1, e1⟩ := bind_eq_ok e
  have hm := peekAny_eq_ok h1
  subst hm
  clear e
  by_cases hc : c = 'm'
  · rw [if_pos hc] at e1; exact loc_module hr e1
  rw [if_neg hc] at e1; clear hc
  by_cases hc : c = 's'
  · rw [if_pos hc] at e1
    obtain ⟨d, m1, h2, e2⟩ := bind_eq_ok e1
    obtain ⟨rfl, rfl⟩ := pure_eq_ok e2
    simpa only [definitionMarks, Definition.erase] using loc_struct h2
  rw [if_neg hc] at e1; clear hc
  by_cases hc : c = 'e'
  · rw [if_pos hc] at e1
    obtain ⟨d, m1, h2, e2⟩ := bind_eq_ok e1
    obtain ⟨rfl, rfl⟩ := pure_eq_ok e2
    simpa only [definitionMarks, Definition.erase] using loc_enum h2
  rw [if_neg hc] at e1; clear hc
  by_cases hc : c = 'c'
  · rw [if_pos hc] at e1
    obtain ⟨d, m1, h2, e2⟩ := bind_eq_ok e1
    obtain ⟨rfl, rfl⟩ := pure_eq_ok e2
    simpa only [definitionMarks, Definition.erase] using loc_const std h2
  rw [if_neg hc] at e1; clear hc
  by_cases hc : c = 't'
  · rw [if_pos hc] at e1
    obtain ⟨d, m1, h2, e2⟩ := bind_eq_ok e1
    obtain ⟨rfl, rfl⟩ := pure_eq_ok e2
    simpa only [definitionMarks, Definition.erase] using loc_alias h2
  rw [if_neg hc] at e1; clear hc
  by_cases hc : c = 'u'
  · rw [if_pos hc] at e1
    obtain ⟨d, m1, h2, e2⟩ := bind_eq_ok e1
    obtain ⟨rfl, rfl⟩ := pure_eq_ok e2
    simpa only [definitionMarks, Definition.erase] using loc_import h2
  rw [if_neg hc] at e1; cases e1

theorem lies_withComment {std : Std} {s m m' r : Text} {comment : List Name} {attrs : List Ast.Attribute}
    {d : Spanned.Definition} (hc : LiesAs s m (commentMarks comment) (commentParts (comment.map Name.value)))
    (hm : m' <:+ m) (hs : m <:+ s) (hd : LiesAs m' r (definitionMarks std d) (definitionParts std d.erase)) (hf : CommentFree d) :
    LiesAs s r (definitionMarks std (Spanned.withAttributes (Spanned.withComment d comment) attrs))
      (definitionParts std (Spanned.withAttributes (Spanned.withComment d comment) attrs).erase) := by
  -- replacing what is said about a name does not change where it is
  have swap : ∀ {x : Span} {k : SymbolKind} {n : String} {c c' : List String} {o o' : Note} {a b : Mark} {ms : List Mark} {gs : List Segment},
      LiesAs m' r (a :: (x, names k n c o) :: ms) (a.2 :: names k n c o :: gs) →
      LiesAs m' r (a :: (x, names k n c' o') :: ms) (a.2 :: names k n c' o' :: gs) := by
    intro x k n c c' o o' a b ms gs h
    obtain ⟨h1, h2⟩ := h
    refine ⟨?_, by simpa using h2⟩
    cases h1 with
    | cons p1 p2 p3 p4 p5 =>
      refine .cons p1 p2 p3 p4 ?_
      cases p5 with
      | cons q1 q2 q3 q4 q5 => exact .cons q1 q2 q3 q4 q5
  have pre := hc.post hm
  cases d with
  | module c k n o ds cl =>
    simp only [CommentFree] at hf; subst hf
    simp only [definitionMarks, Definition.erase, definitionParts] at hd
    simp only [Spanned.withAttributes, Spanned.withComment, definitionMarks, Definition.erase, definitionParts]
    refine pre.append (swap (b := (k, plain (word "" ""))) hd)
  | struct x =>
    obtain ⟨c, at_, k, n, g, f⟩ := x
    simp only [CommentFree] at hf; subst hf
    simp only [definitionMarks, Definition.erase, definitionParts] at hd
    simp only [Spanned.withAttributes, Spanned.withComment, definitionMarks, Definition.erase, definitionParts]
    exact pre.append (swap (b := (k, plain (word "" ""))) hd)
  | enum x =>
    obtain ⟨c, at_, k, n, g, f⟩ := x
    simp only [CommentFree] at hf; subst hf
    simp only [definitionMarks, Definition.erase, definitionParts] at hd
    simp only [Spanned.withAttributes, Spanned.withComment, definitionMarks, Definition.erase, definitionParts]
    exact pre.append (swap (b := (k, plain (word "" ""))) hd)
  | typeAlias x =>
    obtain ⟨c, k, n, g, e, t, sc⟩ := x
    simp only [CommentFree] at hf; subst hf
    simp only [definitionMarks, Definition.erase, definitionParts] at hd
    simp only [Spanned.withAttributes, Spanned.withComment, definitionMarks, Definition.erase, definitionParts]
    exact pre.append (swap (b := (k, plain (word "" ""))) hd)
  | const x =>
    obtain ⟨c, k, n, co, t, e, v, vs, sc⟩ := x
    simp only [CommentFree] at hf; subst hf
    simp only [definitionMarks, Definition.erase, definitionParts] at hd
    simp only [Spanned.withAttributes, Spanned.withComment, definitionMarks, Definition.erase, definitionParts]
    exact pre.append (swap (b := (k, plain (word "" ""))) hd)
  | «import» x => exact hd.pre (hm.trans hs)

theorem loc_defDepth (std : Std) : ∀ n, Loc (Spanned.defDepth std n) (definitionMarks std) (fun d => definitionParts std d.erase)
  | 0 => fun h => by cases h
  | n + 1 => fun e => by
    obtain ⟨c, m1, h1, e1⟩ := bind_eq_ok e
    obtain ⟨a, m2, h2, e2⟩ := bind_eq_ok e1
    obtain ⟨x, m3, h3, e3⟩ := bind_eq_ok e2
    obtain ⟨rfl, rfl⟩ := pure_eq_ok e3
    have hf : CommentFree x := by rw [sp_run] at h3; exact commentFree_defKind h3
    exact lies_withComment (loc_ws loc_comment h1) (suf_ws (suf_parseAttributes std) h2)
      (suf_ws (fun h => (cov_parseComments h).suffix) h1) (loc_sp (loc_defKind (loc_defDepth std n)) h3) hf

theorem lies_schema {std : Std} {text : Text} {s : Spanned.Schema} (h : Spanned.parseSchema std text = some s) :
    LiesAs text [] (definitionsMarks std s.definitions) (definitionsParts std s.erase.definitions) := by
  unfold Spanned.parseSchema at h
  cases e : Spanned.schemaParser std text with
  | back => rw [e] at h; cases h
  | cut => rw [e] at h; cases h
  | ok a r =>
    rw [e] at h
    cases r with
    | cons c r => cases h
    | nil =>
      injection h with h
      subst h
      obtain ⟨c, m1, h1, e1⟩ := bind_eq_ok e
      obtain ⟨ds, m2, h2, e2⟩ := bind_eq_ok e1
      obtain ⟨_, m3, h3, e3⟩ := bind_eq_ok e2
      obtain ⟨rfl, rfl⟩ := pure_eq_ok e3
      have c1 := (loc_many (p := Spanned.parseDefinition std) (fun h => loc_defDepth std _ h) h2).post (suf_takeWhile _ _ h3)
      have c2 : m1 <:+ text := by
        refine suf_opt (suf_bind (suf_ws fun h => (cov_parseComments h).suffix) fun _ => suf_bind (suf_chr _) fun _ => suf_pure _) h1
      have := c1.pre c2
      simpa [definitionsMarks_eq, definitionsParts_eq, Schema.erase, List.flatMap_map] using this

end Mabo.Lsp
