import Verif.Parser.SchemaMain
/-! Definitions and schemas that are printed are read back. -/
namespace Mabo.Parse
open Mabo.Ast Mabo.Spec

theorem fields_stop {f : Char → Bool} {level : Nat} {fs : Fields} (h1 : f ' ' = false) (h2 : f '(' = false) {r : Text}
    (hr : Stop f r) : Stop f (printFields level fs ++ r) := by
  cases fs with
  | named fs t => exact stop_cons.2 h1
  | unnamed fs t => exact stop_cons.2 h2
  | unit => exact hr

theorem stop_ne {d : Char} {r : Text} (h : Stop (· == d) r) : ∀ c, r.head? = some c → c ≠ d := fun c hc => by
  have := h c hc
  simpa using this

theorem literal_nospace (std : Std) {l : Literal} (hl : LitOk std l) {r : Text} (hr : LiteralEnd r) :
    Stop isSpace (printLiteral std l ++ r) := by
  have := literal_print std l hl hr
  intro c hc
  cases hp : printLiteral std l ++ r with
  | nil => rw [hp] at hc; cases hc
  | cons d ds =>
    rw [hp] at hc this
    cases hc
    by_cases hsp : isSpace c = true
    · exfalso
      simp only [isSpace, Bool.or_eq_true, beq_iff_eq] at hsp
      rcases hsp with rfl | rfl <;> cases this
    · simpa using hsp

theorem space1_one {s : Text} (h : Stop isSpace s) : space1 (' ' :: s) = .ok [' '] s :=
  takeWhile_ok (w := [' ']) (by decide) h (by decide)

theorem camel_nospace {n : String} (h : CamelName n) (r : Text) : Stop isSpace (n.toList ++ r) := by
  obtain ⟨c, cs, hc, hu⟩ := camel_head h
  rw [hc]; exact stop_cons.2 (multi_space (upper_starts hu).1)

theorem snake_nospace {n : String} (h : SnakeName n) (r : Text) : Stop isSpace (n.toList ++ r) := by
  obtain ⟨c, cs, hc, hu⟩ := snake_head h
  rw [hc]; exact stop_cons.2 (multi_space (lower_starts hu).1)

/-! ### The kinds of definitions -/

theorem struct_print (level : Nat) {s : Struct} (h3 : CamelName s.name) (h4 : TypeParamsWf s.generics s.genericsTrailing)
    (h5 : FieldsWf s.fields) (r : Text) :
    parseStruct ("struct ".toList ++ (s.name.toList ++ (printGenerics s.generics s.genericsTrailing ++
      (printFields level s.fields ++ '\n' :: r)))) =
      .ok { s with comment := [], attributes := [] } ('\n' :: r) := by
  obtain ⟨w', _, he, hf⟩ := fields_print level h5 (r := r) blank_nil (d := '\n') (by decide) (by decide) (by decide)
  rw [he rfl] at hf
  simp only [List.nil_append] at hf
  have hl : ∀ m, lit "struct" ("struct ".toList ++ m) = .ok () (' ' :: m) := fun m => lit_ok "struct" (' ' :: m)
  have hg := generics_print h4 (r := printFields level s.fields ++ '\n' :: r)
    (stop_ne (fields_stop (by decide) (by decide) (stop_cons.2 (by decide))))
  have hn := camel_print h3 (r := printGenerics s.generics s.genericsTrailing ++ (printFields level s.fields ++ '\n' :: r))
    (generics_stop (by decide) (fields_stop (by decide) (by decide) (stop_cons.2 (by decide))))
  unfold parseStruct
  rw [bind_ok (hl _), bind_ok (space1_one (camel_nospace h3 _)), cutErr_ok, bind_ok hn, bind_ok hg, bind_ok hf]
  rfl

theorem enum_print (level : Nat) {e : Enum} (h3 : CamelName e.name) (h4 : TypeParamsWf e.generics e.genericsTrailing)
    (h5 : e.variants ≠ []) (h6 : ∀ v ∈ e.variants, VariantWf v) (r : Text) :
    parseEnum ("enum ".toList ++ (e.name.toList ++ (printGenerics e.generics e.genericsTrailing ++
      ' ' :: (block level (e.variants.map (printVariant (level + 1))) e.variantsTrailing ++ r)))) =
      .ok { e with comment := [], attributes := [] } r := by
  have hl : ∀ m, lit "enum" ("enum ".toList ++ m) = .ok () (' ' :: m) := fun m => lit_ok "enum" (' ' :: m)
  have hb := block_print eats_parseVariant (f := printVariant (level + 1)) (level := level)
    (fun r => variant_close r) h5 e.variantsTrailing (fun a ha rest hr => variant_print (h6 a ha) hr) r
  have hb' : sp (surround '{' '}' (commaList parseVariant))
      (' ' :: (block level (e.variants.map (printVariant (level + 1))) e.variantsTrailing ++ r)) =
      .ok (e.variants, e.variantsTrailing) r := by
    rw [sp_skip (by decide), sp_stop (by exact stop_cons.2 (by decide))]; exact hb
  have hg := generics_print h4 (r := ' ' :: (block level (e.variants.map (printVariant (level + 1))) e.variantsTrailing ++ r))
    (stop_ne (stop_cons.2 (by decide)))
  have hn := camel_print h3 (r := printGenerics e.generics e.genericsTrailing ++
    ' ' :: (block level (e.variants.map (printVariant (level + 1))) e.variantsTrailing ++ r))
    (generics_stop (by decide) (stop_cons.2 (by decide)))
  unfold parseEnum
  rw [bind_ok (hl _), bind_ok (space1_one (camel_nospace h3 _)), cutErr_ok, bind_ok hn, bind_ok hg, bind_ok hb']
  rfl

theorem sp_eq (r : Text) : sp (chr '=') (' ' :: '=' :: r) = .ok () r := by
  rw [sp_skip (by decide), sp_stop (stop_cons.2 (by decide))]; exact chr_ok _ _

theorem alias_print {a : TypeAlias} (h3 : CamelName a.name) (h4 : TypeParamsWf a.generics a.genericsTrailing)
    (h5 : TypeOk a.target) (r : Text) :
    parseAlias ("type ".toList ++ (a.name.toList ++ (printGenerics a.generics a.genericsTrailing ++
      ' ' :: '=' :: ' ' :: (printType a.target ++ ';' :: r)))) = .ok { a with comment := [] } r := by
  have hl : ∀ m, lit "type" ("type ".toList ++ m) = .ok () (' ' :: m) := fun m => lit_ok "type" (' ' :: m)
  have hg := generics_print h4 (r := ' ' :: '=' :: ' ' :: (printType a.target ++ ';' :: r))
    (stop_ne (stop_cons.2 (by decide)))
  have hn := camel_print h3 (r := printGenerics a.generics a.genericsTrailing ++
    ' ' :: '=' :: ' ' :: (printType a.target ++ ';' :: r)) (generics_stop (by decide) (stop_cons.2 (by decide)))
  have ht := sp_type h5 (r := ';' :: r) (typeEnd_cons (by decide))
  have hsemi : sp (chr ';') (';' :: r) = .ok () r := by
    rw [sp_stop (stop_cons.2 (by decide))]; exact chr_ok _ _
  unfold parseAlias
  rw [bind_ok (hl _), bind_ok (space1_one (camel_nospace h3 _)), cutErr_ok, bind_ok hn, bind_ok hg, bind_ok (sp_eq _),
    bind_ok ht, bind_ok hsemi]
  rfl

theorem upperName_iff (n : String) : UpperName n ↔ IsName isUpper isConstChar n := by
  unfold UpperName Ident IsName
  constructor
  · rintro ⟨c, cs, h1, h2, h3⟩
    refine ⟨c, cs, h1, (isUpper_iff c).2 h2, fun d hd => ?_⟩
    have := h3 d hd
    simp only [List.mem_append, List.mem_singleton] at this
    simp only [isConstChar, Bool.or_eq_true, isUpper_iff, isDigit_iff, beq_iff_eq]
    exact this
  · rintro ⟨c, cs, h1, h2, h3⟩
    refine ⟨c, cs, h1, (isUpper_iff c).1 h2, fun d hd => ?_⟩
    have := h3 d hd
    simp only [List.mem_append, List.mem_singleton]
    simpa only [isConstChar, Bool.or_eq_true, isUpper_iff, isDigit_iff, beq_iff_eq] using this

theorem semi_literalEnd (r : Text) : LiteralEnd (';' :: r) := fun c hc => by cases hc; decide

theorem const_print (std : Std) {c : Const} (h3 : UpperName c.name) (h4 : TypeOk c.ty) (h5 : LitOk std c.value) (r : Text) :
    parseConst std ("const ".toList ++ (c.name.toList ++ ':' :: ' ' :: (printType c.ty ++
      ' ' :: '=' :: ' ' :: (printLiteral std c.value ++ ';' :: r)))) = .ok { c with comment := [] } r := by
  have hl : ∀ m, lit "const" ("const ".toList ++ m) = .ok () (' ' :: m) := fun m => lit_ok "const" (' ' :: m)
  have hu := (upperName_iff _).1 h3
  have hns : ∀ m, Stop isSpace (c.name.toList ++ m) := fun m => by
    obtain ⟨d, ds, h1, h2, _⟩ := hu
    rw [h1]; exact stop_cons.2 (multi_space (upper_starts h2).1)
  have hn := name_print hu (r := ':' :: ' ' :: (printType c.ty ++
      ' ' :: '=' :: ' ' :: (printLiteral std c.value ++ ';' :: r))) (stop_cons.2 (by decide))
  have ht := sp_type h4 (r := ' ' :: '=' :: ' ' :: (printLiteral std c.value ++ ';' :: r)) (typeEnd_cons (by decide))
  have hv : sp (parseLiteral std) (' ' :: (printLiteral std c.value ++ ';' :: r)) = .ok c.value (';' :: r) := by
    rw [sp_skip (by decide), sp_stop (literal_nospace std h5 (semi_literalEnd r))]
    exact literal_print std _ h5 (semi_literalEnd r)
  unfold parseConst
  rw [bind_ok (hl _), bind_ok (space1_one (hns _)), cutErr_ok, bind_ok hn, bind_ok (chr_ok _ _), bind_ok ht,
    bind_ok (sp_eq _), bind_ok hv, bind_ok (chr_ok _ _)]
  rfl

/-! ### Imports -/

/-- What follows the segments of an import. -/
def elementText : Option String → Text
  | none => []
  | some e => "::".toList ++ e.toList

theorem segments_sep (o : Option String) (ho : ∀ e, o = some e → CamelName e) (r : Text) :
    ∀ ss : List String, ss ≠ [] → (∀ s ∈ ss, SnakeName s) →
      separated1 parseSegment (lit "::") (printSegments ss ++ (elementText o ++ ';' :: r)) =
        .ok ss (elementText o ++ ';' :: r) ∧
      many (do let _ ← lit "::"; parseSegment) ("::".toList ++ (printSegments ss ++ (elementText o ++ ';' :: r))) =
        .ok ss (elementText o ++ ';' :: r)
  | [], h, _ => absurd rfl h
  | s :: ss, _, h => by
    have heats : Eats (do let _ ← lit "::"; parseSegment) :=
      eats_bind_left (eats_lit (by decide)) fun _ => mono_name _ _
    have hs := h s (by simp)
    -- the rest after the first segment
    have hrest : ∃ m, printSegments (s :: ss) ++ (elementText o ++ ';' :: r) = s.toList ++ m ∧ Stop isSegChar m ∧
        many (do let _ ← lit "::"; parseSegment) m = .ok ss (elementText o ++ ';' :: r) := by
      cases ss with
      | nil =>
        refine ⟨elementText o ++ ';' :: r, rfl, ?_, ?_⟩
        · cases o with
          | none => exact stop_cons.2 (by decide)
          | some e => exact stop_cons.2 (by decide)
        · refine many_back ?_
          cases o with
          | none => exact bind_back (lit_back_of_head (c := ':') rfl (by decide))
          | some e =>
            obtain ⟨c, cs, hc, hu⟩ := camel_head (ho e rfl)
            have hl : lit "::" (elementText (some e) ++ ';' :: r) = .ok () (e.toList ++ ';' :: r) :=
              lit_ok "::" (e.toList ++ ';' :: r)
            rw [bind_ok hl, hc]
            refine name_back (stop_cons.2 ?_)
            rw [isUpper_iff] at hu
            have : ∀ c ∈ uppers, isLower c = false := by decide
            exact this c hu
      | cons t ss =>
        obtain ⟨_, ih⟩ := segments_sep o ho r (t :: ss) (by simp) fun x hx => h x (by simp [hx])
        refine ⟨"::".toList ++ (printSegments (t :: ss) ++ (elementText o ++ ';' :: r)), ?_, stop_cons.2 (by decide), ih⟩
        show s.toList ++ "::".toList ++ printSegments (t :: ss) ++ (elementText o ++ ';' :: r) = _
        simp only [List.append_assoc]
    obtain ⟨m, e, hm, hmany⟩ := hrest
    have hseg := segment_print hs hm
    rw [e]
    constructor
    · unfold separated1
      rw [bind_ok hseg, bind_ok hmany]; rfl
    · refine many_ok heats (r := m) ?_ hmany
      rw [bind_ok (lit_ok "::" _)]; exact hseg

theorem import_print {i : Import} (h : ImportWf i) (r : Text) :
    parseImport ("use ".toList ++ (printSegments i.segments ++ (elementText i.element ++ ';' :: r))) = .ok i r := by
  obtain ⟨h1, h2, h3⟩ := h
  have hl : ∀ m, lit "use" ("use ".toList ++ m) = .ok () (' ' :: m) := fun m => lit_ok "use" (' ' :: m)
  have hsep := (segments_sep i.element h3 r i.segments h1 h2).1
  have hns : Stop isSpace (printSegments i.segments ++ (elementText i.element ++ ';' :: r)) := by
    cases hs : i.segments with
    | nil => exact absurd hs h1
    | cons s ss =>
      have := snake_nospace (h2 s (by rw [hs]; simp))
      cases ss with
      | nil => exact this _
      | cons t ss =>
        show Stop isSpace (s.toList ++ "::".toList ++ printSegments (t :: ss) ++ _)
        rw [List.append_assoc, List.append_assoc]; exact this _
  have hel : opt (do lit "::"; alt parseCamel parseCamel) (elementText i.element ++ ';' :: r) =
      .ok i.element (';' :: r) := by
    cases he : i.element with
    | none => exact opt_none (bind_back (lit_back_of_head (c := ':') rfl (by decide)))
    | some e =>
      refine opt_some ?_
      have hl : lit "::" (elementText (some e) ++ ';' :: r) = .ok () (e.toList ++ ';' :: r) :=
        lit_ok "::" (e.toList ++ ';' :: r)
      rw [bind_ok hl]
      exact alt_left (camel_print (h3 e he) (stop_cons.2 (by decide)))
  unfold parseImport
  rw [bind_ok (hl _), bind_ok (space1_one hns), cutErr_ok, bind_ok hsep, bind_ok hel, bind_ok (chr_ok _ _)]
  rfl

/-! ### Definitions -/

/-- The frame of a definition: white space, comment, attributes, indentation. -/
theorem def_frame (std : Std) {level : Nat} {com : List String} {as : List Attribute} (hcom : CommentWf com)
    (has : AttrsWf as) (hl : ∀ l ∈ attrsLiterals as, LitOk std l) {w : Text} (hw : ∀ d ∈ w, isMulti d = true)
    {c : Char} {s : Text} (hc : Starts c) (hp : c ≠ '#') {d : Definition} {r : Text}
    (hk : defKind std (parseDefinition std) (c :: s) = .ok d r) :
    parseDefinition std (w ++ (printComment level com ++ (printAttributes std level as ++ (indent level ++ c :: s)))) =
      .ok (withAttributes (withComment d com) as) r := by
  have key : ∃ m, ws parseComments (w ++ (printComment level com ++ (printAttributes std level as ++ (indent level ++ c :: s)))) =
      .ok com m ∧ ∃ ind', Blank ind' ∧ ws (parseAttributes std) m = .ok as (ind' ++ c :: s) := by
    cases as with
    | nil =>
      obtain ⟨ind', hi', e⟩ := ws_comments (level := level) hcom hw (blank_indent level) hc (s := s)
      obtain ⟨ind'', hi'', e2⟩ := ws_attributes std (level := 0) (as := []) trivial (fun _ h => by cases h) hi' blank_nil hc hp
        (s := s)
      exact ⟨_, e, ind'', hi'', e2⟩
    | cons a as =>
      have e0 : printAttributes std level (a :: as) ++ (indent level ++ c :: s) =
          indent level ++ '#' :: ('[' :: (printAttrs std (a :: as) ++ (']' :: '\n' :: (indent level ++ c :: s)))) := by
        simp [printAttributes]
      obtain ⟨ind', hi', e⟩ := ws_comments (level := level) hcom hw (blank_indent level) (c := '#') ⟨by decide, by decide⟩
        (s := '[' :: (printAttrs std (a :: as) ++ (']' :: '\n' :: (indent level ++ c :: s))))
      obtain ⟨ind'', hi'', e2⟩ := ws_attributes std (level := 0) has hl hi' (blank_indent level) hc hp (s := s)
      refine ⟨_, by rw [e0]; exact e, ind'', hi'', ?_⟩
      rw [← e2]
      simp [printAttributes, indent]
  obtain ⟨m, e1, ind', hi', e2⟩ := key
  have e3 : sp (defKind std (parseDefinition std)) (ind' ++ c :: s) = .ok d r := by
    rw [sp_blank hi', sp_stop (stop_cons.2 (multi_space hc.1))]; exact hk
  rw [parseDefinition_eq]
  unfold defBody
  rw [bind_ok e1, bind_ok e2, bind_ok e3]
  rfl

/-- The part of a printed definition that its parser leaves. -/
def defTail : Definition → Text
  | .module .. => ['\n']
  | .struct _ => ['\n']
  | .enum _ => ['\n']
  | _ => []

theorem defTail_multi (d : Definition) : ∀ c ∈ defTail d, isMulti c = true := by
  cases d <;> simp [defTail] <;> decide

theorem dropWhile_idem (f : Char → Bool) (s : Text) : (s.dropWhile f).dropWhile f = s.dropWhile f := by
  induction s with
  | nil => rfl
  | cons c s ih =>
    rw [List.dropWhile_cons]
    split
    · exact ih
    · rename_i h; rw [List.dropWhile_cons, if_neg h]

theorem ws_parseDefinition (std : Std) (s : Text) : ws (parseDefinition std) s = parseDefinition std s := by
  rw [ws_run, parseDefinition_eq, parseDefinition_eq]
  unfold defBody
  have : ws parseComments (s.dropWhile isMulti) = ws parseComments s := by rw [ws_run, ws_run, dropWhile_idem]
  rw [bind_run, bind_run, this]

/-- Something that is no definition. -/
theorem def_back (std : Std) {w r : Text} (hw : ∀ d ∈ w, isMulti d = true) {c : Char} (hc : Starts c)
    (hn : c ∉ ['#', 'm', 's', 'e', 'c', 't', 'u']) : parseDefinition std (w ++ c :: r) = .back := by
  obtain ⟨ind', hi', e⟩ := ws_comments (level := 0) (lines := []) (fun _ h => by cases h) hw blank_nil hc (s := r)
  have e : ws parseComments (w ++ c :: r) = .ok [] (ind' ++ c :: r) := e
  obtain ⟨ind'', hi'', e2⟩ := ws_attributes std (level := 0) (as := []) trivial (fun _ h => by cases h) hi' blank_nil hc
    (fun h => hn (by simp [h])) (s := r)
  have e2 : ws (parseAttributes std) (ind' ++ c :: r) = .ok [] (ind'' ++ c :: r) := e2
  rw [parseDefinition_eq]
  unfold defBody
  rw [bind_ok e, bind_ok e2]
  refine bind_back ?_
  rw [sp_blank hi'', sp_stop (stop_cons.2 (multi_space hc.1))]
  unfold defKind
  simp only [List.mem_cons, List.not_mem_nil, or_false, not_or] at hn
  obtain ⟨_, h1, h2, h3, h4, h5, h6⟩ := hn
  rw [bind_ok (peekAny_cons _ _), if_neg h1, if_neg h2, if_neg h3, if_neg h4, if_neg h5, if_neg h6]
  rfl

theorem printDefs_cons (std : Std) (level : Nat) (d e : Definition) (ds : List Definition) :
    printDefs std level (d :: e :: ds) = printDef std level d ++ '\n' :: printDefs std level (e :: ds) := rfl

mutual
theorem parseDefinition_print (std : Std) : ∀ d : Definition, DefWf d → (∀ l ∈ defLiterals d, LitOk std l) →
    ∀ (level : Nat) (w r : Text), (∀ c ∈ w, isMulti c = true) →
      parseDefinition std (w ++ (printDef std level d ++ r)) = .ok d (defTail d ++ r)
  | .module com n ds, h, hl, level, w, r, hw => by
    rw [DefWf] at h
    rw [defLiterals] at hl
    obtain ⟨h1, h2, h3⟩ := h
    have e : printDef std level (.module com n ds) ++ r = printComment level com ++ (printAttributes std level [] ++
        (indent level ++ 'm' :: ("od ".toList ++ (n.toList ++ (' ' :: '{' :: (['\n'] ++ (printDefs std (level + 1) ds ++
          (indent level ++ '}' :: '\n' :: r)))))))) := by
      rw [printDef]; simp [printAttributes]
    obtain ⟨w', hw', hm⟩ := parseDefs_print std ds h3 hl (level + 1) ['\n'] (indent level) ('\n' :: r) (by decide)
      (blank_indent level)
    rw [e]
    have hk := def_frame std (level := level) (com := com) (as := []) h1 trivial (fun _ h => by cases h) hw (c := 'm')
      (s := "od ".toList ++ (n.toList ++ (' ' :: '{' :: (['\n'] ++ (printDefs std (level + 1) ds ++
          (indent level ++ '}' :: '\n' :: r)))))) ⟨by decide, by decide⟩ (by decide) (d := .module [] n ds) (r := '\n' :: r) ?_
    · rw [hk]; rfl
    · have hlit : ∀ m, lit "mod" ('m' :: ("od ".toList ++ m)) = .ok () (' ' :: m) := fun m => lit_ok "mod" (' ' :: m)
      have hn := segment_print h2 (r := ' ' :: '{' :: (['\n'] ++ (printDefs std (level + 1) ds ++
          (indent level ++ '}' :: '\n' :: r)))) (stop_cons.2 (by decide))
      have hclose : ws (chr '}') (w' ++ '}' :: '\n' :: r) = .ok () ('\n' :: r) := by
        rw [ws_blanks hw', ws_stop (stop_cons.2 (by decide))]; exact chr_ok _ _
      have hs : sp (surround '{' '}' (many (ws (parseDefinition std)))) (' ' :: '{' :: (['\n'] ++ (printDefs std (level + 1) ds ++
          (indent level ++ '}' :: '\n' :: r)))) = .ok ds ('\n' :: r) := by
        rw [sp_skip (by decide), sp_stop (stop_cons.2 (by decide))]
        exact surround_ok hm hclose
      unfold defKind
      rw [bind_ok (peekAny_cons _ _), if_pos rfl]
      unfold parseModule
      rw [bind_ok (hlit _), bind_ok (space1_one (snake_nospace h2 _)), cutErr_ok, bind_ok hn, bind_ok hs]
      rfl
  | .struct s, h, hl, level, w, r, hw => by
    rw [DefWf] at h
    rw [defLiterals] at hl
    obtain ⟨h1, h2, h3, h4, h5⟩ := h
    have e : printDef std level (.struct s) ++ r = printComment level s.comment ++ (printAttributes std level s.attributes ++
        (indent level ++ 's' :: ("truct ".toList ++ (s.name.toList ++ (printGenerics s.generics s.genericsTrailing ++
          (printFields level s.fields ++ '\n' :: r)))))) := by
      rw [printDef, printStruct]; simp
    have hs := struct_print level h3 h4 h5 r
    have hs : parseStruct ('s' :: ("truct ".toList ++ (s.name.toList ++ (printGenerics s.generics s.genericsTrailing ++
          (printFields level s.fields ++ '\n' :: r))))) = _ := hs
    rw [e, def_frame std h1 h2 hl hw (c := 's') ⟨by decide, by decide⟩ (by decide)
      (d := .struct { s with comment := [], attributes := [] }) (r := '\n' :: r)
      (by unfold defKind
          rw [bind_ok (peekAny_cons _ _), if_neg (by decide), if_pos rfl, bind_ok hs]; rfl)]
    rfl
  | .enum s, h, hl, level, w, r, hw => by
    rw [DefWf] at h
    rw [defLiterals] at hl
    obtain ⟨h1, h2, h3, h4, h5, h6⟩ := h
    have e : printDef std level (.enum s) ++ r = printComment level s.comment ++ (printAttributes std level s.attributes ++
        (indent level ++ 'e' :: ("num ".toList ++ (s.name.toList ++ (printGenerics s.generics s.genericsTrailing ++
          ' ' :: (block level (s.variants.map (printVariant (level + 1))) s.variantsTrailing ++ ('\n' :: r))))))) := by
      rw [printDef, printEnum]; simp
    have hs := enum_print level h3 h4 h5 h6 ('\n' :: r)
    have hs : parseEnum ('e' :: ("num ".toList ++ (s.name.toList ++ (printGenerics s.generics s.genericsTrailing ++
          ' ' :: (block level (s.variants.map (printVariant (level + 1))) s.variantsTrailing ++ ('\n' :: r)))))) = _ := hs
    rw [e, def_frame std h1 h2 hl hw (c := 'e') ⟨by decide, by decide⟩ (by decide)
      (d := .enum { s with comment := [], attributes := [] }) (r := '\n' :: r)
      (by unfold defKind
          rw [bind_ok (peekAny_cons _ _), if_neg (by decide), if_neg (by decide), if_pos rfl, bind_ok hs]; rfl)]
    rfl
  | .const k, h, hl, level, w, r, hw => by
    rw [DefWf] at h
    rw [defLiterals] at hl
    obtain ⟨h1, h2, h3⟩ := h
    have e : printDef std level (.const k) ++ r = printComment level k.comment ++ (printAttributes std level [] ++
        (indent level ++ 'c' :: ("onst ".toList ++ (k.name.toList ++ ':' :: ' ' :: (printType k.ty ++
          ' ' :: '=' :: ' ' :: (printLiteral std k.value ++ ';' :: r)))))) := by
      rw [printDef, printConst]; simp [printAttributes]
    have hs := const_print std h2 h3 (hl k.value (by simp)) r
    have hs : parseConst std ('c' :: ("onst ".toList ++ (k.name.toList ++ ':' :: ' ' :: (printType k.ty ++
          ' ' :: '=' :: ' ' :: (printLiteral std k.value ++ ';' :: r))))) = _ := hs
    rw [e, def_frame std h1 (as := []) trivial (fun _ h => by cases h) hw (c := 'c') ⟨by decide, by decide⟩ (by decide)
      (d := .const { k with comment := [] }) (r := r)
      (by unfold defKind
          rw [bind_ok (peekAny_cons _ _), if_neg (by decide), if_neg (by decide), if_neg (by decide), if_pos rfl, bind_ok hs]; rfl)]
    rfl
  | .typeAlias a, h, hl, level, w, r, hw => by
    rw [DefWf] at h
    obtain ⟨h1, h2, h3, h4⟩ := h
    have e : printDef std level (.typeAlias a) ++ r = printComment level a.comment ++ (printAttributes std level [] ++
        (indent level ++ 't' :: ("ype ".toList ++ (a.name.toList ++ (printGenerics a.generics a.genericsTrailing ++
      ' ' :: '=' :: ' ' :: (printType a.target ++ ';' :: r)))))) := by
      rw [printDef, printAlias]; simp [printAttributes]
    have hs := alias_print h2 h3 h4 r
    have hs : parseAlias ('t' :: ("ype ".toList ++ (a.name.toList ++ (printGenerics a.generics a.genericsTrailing ++
      ' ' :: '=' :: ' ' :: (printType a.target ++ ';' :: r))))) = _ := hs
    rw [e, def_frame std h1 (as := []) trivial (fun _ h => by cases h) hw (c := 't') ⟨by decide, by decide⟩ (by decide)
      (d := .typeAlias { a with comment := [] }) (r := r)
      (by unfold defKind
          rw [bind_ok (peekAny_cons _ _), if_neg (by decide), if_neg (by decide), if_neg (by decide), if_neg (by decide),
            if_pos rfl, bind_ok hs]; rfl)]
    rfl
  | .import i, h, hl, level, w, r, hw => by
    rw [DefWf] at h
    have e : printDef std level (.import i) ++ r = printComment level [] ++ (printAttributes std level [] ++
        (indent level ++ 'u' :: ("se ".toList ++ (printSegments i.segments ++ (elementText i.element ++ ';' :: r))))) := by
      rw [printDef, printImport]
      cases i.element <;> simp [printAttributes, printComment, elementText]
    have hs := import_print h r
    have hs : parseImport ('u' :: ("se ".toList ++ (printSegments i.segments ++ (elementText i.element ++ ';' :: r)))) = _ := hs
    rw [e, def_frame std (com := []) (fun _ h => by cases h) (as := []) trivial (fun _ h => by cases h) hw (c := 'u')
      ⟨by decide, by decide⟩ (by decide) (d := .import i) (r := r)
      (by unfold defKind
          rw [bind_ok (peekAny_cons _ _), if_neg (by decide), if_neg (by decide), if_neg (by decide), if_neg (by decide),
            if_neg (by decide), if_pos rfl, bind_ok hs]; rfl)]
    rfl
theorem parseDefs_print (std : Std) : ∀ ds : List Definition, DefsWf ds → (∀ l ∈ defsLiterals ds, LitOk std l) →
    ∀ (level : Nat) (w ind r : Text), (∀ c ∈ w, isMulti c = true) → Blank ind →
      ∃ w', (∀ c ∈ w', isMulti c = true) ∧
        many (ws (parseDefinition std)) (w ++ (printDefs std level ds ++ (ind ++ '}' :: r))) = .ok ds (w' ++ '}' :: r)
  | [], _, _, level, w, ind, r, hw, hi => by
    have hw' : ∀ c ∈ w ++ ind, isMulti c = true := fun c hc => by
      rcases List.mem_append.1 hc with hc | hc
      · exact hw c hc
      · exact space_multi (hi c hc)
    refine ⟨w ++ ind, hw', ?_⟩
    show many _ (w ++ (ind ++ '}' :: r)) = _
    rw [← List.append_assoc]
    refine many_back ?_
    rw [ws_parseDefinition]
    exact def_back std hw' ⟨by decide, by decide⟩ (by decide)
  | [d], h, hl, level, w, ind, r, hw, hi => by
    rw [DefsWf] at h
    rw [defsLiterals] at hl
    have hd := parseDefinition_print std d h.1 (fun l hm => hl l (List.mem_append.2 (.inl hm))) level w (ind ++ '}' :: r) hw
    have hw' : ∀ c ∈ defTail d ++ ind, isMulti c = true := fun c hc => by
      rcases List.mem_append.1 hc with hc | hc
      · exact defTail_multi d c hc
      · exact space_multi (hi c hc)
    refine ⟨defTail d ++ ind, hw', ?_⟩
    refine many_ok (eats_ws (eats_parseDefinition std)) (by rw [ws_parseDefinition]; exact hd) ?_
    rw [← List.append_assoc]
    refine many_back ?_
    rw [ws_parseDefinition]
    exact def_back std hw' ⟨by decide, by decide⟩ (by decide)
  | d :: e :: ds, h, hl, level, w, ind, r, hw, hi => by
    rw [DefsWf] at h
    rw [defsLiterals] at hl
    have hd := parseDefinition_print std d h.1 (fun l hm => hl l (List.mem_append.2 (.inl hm))) level w
      ('\n' :: (printDefs std level (e :: ds) ++ (ind ++ '}' :: r))) hw
    have hw' : ∀ c ∈ defTail d ++ ['\n'], isMulti c = true := fun c hc => by
      rcases List.mem_append.1 hc with hc | hc
      · exact defTail_multi d c hc
      · rw [List.mem_singleton.1 hc]; decide
    obtain ⟨w', hw'', ih⟩ := parseDefs_print std (e :: ds) h.2 (fun l hm => hl l (List.mem_append.2 (.inr hm))) level
      (defTail d ++ ['\n']) ind r hw' hi
    refine ⟨w', hw'', ?_⟩
    rw [printDefs_cons]
    simp only [List.append_assoc, List.cons_append, List.nil_append] at hd ih ⊢
    exact many_ok (eats_ws (eats_parseDefinition std)) (by rw [ws_parseDefinition]; exact hd) ih
end

/-! ### Schemas -/

theorem parseTop_print (std : Std) : ∀ ds : List Definition, DefsWf ds → (∀ l ∈ defsLiterals ds, LitOk std l) →
    ∀ w : Text, (∀ c ∈ w, isMulti c = true) →
      ∃ w', (∀ c ∈ w', isMulti c = true) ∧ many (parseDefinition std) (w ++ printTop std ds) = .ok ds w'
  | [], _, _, w, hw => by
    refine ⟨w, hw, ?_⟩
    show many _ (w ++ []) = _
    rw [List.append_nil]
    refine many_back ?_
    rw [← ws_parseDefinition, ← List.append_nil w, ws_blanks hw]
    rfl
  | d :: ds, h, hl, w, hw => by
    rw [DefsWf] at h
    rw [defsLiterals] at hl
    have hd := parseDefinition_print std d h.1 (fun l hm => hl l (List.mem_append.2 (.inl hm))) 0 w
      ('\n' :: printTop std ds) hw
    have hw' : ∀ c ∈ defTail d ++ ['\n'], isMulti c = true := fun c hc => by
      rcases List.mem_append.1 hc with hc | hc
      · exact defTail_multi d c hc
      · rw [List.mem_singleton.1 hc]; decide
    obtain ⟨w', hw'', ih⟩ := parseTop_print std ds h.2 (fun l hm => hl l (List.mem_append.2 (.inr hm)))
      (defTail d ++ ['\n']) hw'
    refine ⟨w', hw'', ?_⟩
    rw [printTop]
    simp only [List.append_assoc, List.cons_append, List.nil_append] at hd ih ⊢
    exact many_ok (eats_parseDefinition std) hd ih

/-- A printed definition is its comment, indentation, and a character that starts neither comment nor line. -/
theorem printDef_form (std : Std) (level : Nat) (d : Definition) : ∃ com c s, (∀ h : DefWf d, CommentWf com) ∧ Starts c ∧
    printDef std level d = printComment level com ++ (indent level ++ c :: s) := by
  have hn : CommentWf [] := fun _ h => by cases h
  have ha : ∀ (as : List Attribute) (c : Char) (s : Text), Starts c →
      ∃ c' s', Starts c' ∧ printAttributes std level as ++ (indent level ++ c :: s) = indent level ++ c' :: s' := by
    intro as c s hc
    cases as with
    | nil => exact ⟨c, s, hc, rfl⟩
    | cons a as => exact ⟨'#', _, ⟨by decide, by decide⟩, by simp only [printAttributes, List.append_assoc, List.cons_append]; rfl⟩
  cases d with
  | module com n ds =>
    exact ⟨com, 'm', _, fun h => by rw [DefWf] at h; exact h.1, ⟨by decide, by decide⟩, by
      rw [printDef]; simp only [List.append_assoc]; rfl⟩
  | struct x =>
    obtain ⟨c, s, hc, e⟩ := ha x.attributes 's' ("truct ".toList ++ (x.name.toList ++
      (printGenerics x.generics x.genericsTrailing ++ (printFields level x.fields ++ ['\n'])))) ⟨by decide, by decide⟩
    refine ⟨x.comment, c, s, fun h => by rw [DefWf] at h; exact h.1, hc, ?_⟩
    rw [← e, printDef, printStruct]; simp
  | enum x =>
    obtain ⟨c, s, hc, e⟩ := ha x.attributes 'e' ("num ".toList ++ (x.name.toList ++
      (printGenerics x.generics x.genericsTrailing ++
        ' ' :: (block level (x.variants.map (printVariant (level + 1))) x.variantsTrailing ++ ['\n'])))) ⟨by decide, by decide⟩
    refine ⟨x.comment, c, s, fun h => by rw [DefWf] at h; exact h.1, hc, ?_⟩
    rw [← e, printDef, printEnum]; simp
  | typeAlias a =>
    exact ⟨a.comment, 't', _, fun h => by rw [DefWf] at h; exact h.1, ⟨by decide, by decide⟩, by
      rw [printDef, printAlias]; simp only [List.append_assoc]; rfl⟩
  | const c =>
    exact ⟨c.comment, 'c', _, fun h => by rw [DefWf] at h; exact h.1, ⟨by decide, by decide⟩, by
      rw [printDef, printConst]; simp only [List.append_assoc]; rfl⟩
  | «import» i =>
    exact ⟨[], 'u', _, fun _ => hn, ⟨by decide, by decide⟩, by
      rw [printDef, printImport]; simp only [List.append_assoc, printComment, List.nil_append]; rfl⟩

/-- The comment of a schema: comment lines and an empty line. -/
def schemaComment : P (List String) := do let c ← ws parseComments; chr '\n'; pure c

/-- A definition is not taken for the comment of the schema. -/
theorem schemaComment_none (std : Std) {ds : List Definition} (h : DefsWf ds) :
    schemaComment (printTop std ds) = .back := by
  cases ds with
  | nil => rfl
  | cons d ds =>
    rw [DefsWf] at h
    obtain ⟨com, c, s, h1, h2, e⟩ := printDef_form std 0 d
    obtain ⟨ind', hi', hc⟩ := ws_comments (level := 0) (h1 h.1) (w := []) (by decide) (blank_indent 0) h2
      (s := s ++ '\n' :: printTop std ds)
    rw [printTop, e]
    simp only [List.append_assoc, List.cons_append, List.nil_append] at hc ⊢
    unfold schemaComment
    rw [bind_ok hc]
    refine bind_back ?_
    cases ind' with
    | nil => exact chr_back _ (by rintro rfl; exact absurd h2.1 (by decide))
    | cons x xs =>
      refine chr_back _ ?_
      rintro rfl
      exact absurd (hi' '\n' (by simp)) (by decide)

/-- The comment of a schema is read back. -/
theorem schemaComment_some {lines : List String} (h : CommentWf lines) (hne : lines ≠ []) (r : Text) :
    schemaComment (printComment 0 lines ++ '\n' :: r) = .ok lines r := by
  unfold schemaComment
  have hc : ws parseComments (printComment 0 lines ++ '\n' :: r) = .ok lines ('\n' :: r) := by
    have := comments_print (level := 0) h (c := '\n') (s := r) blank_nil (by decide) (by decide)
    rw [ws_stop]
    · exact this
    · cases lines with
      | nil => exact absurd rfl hne
      | cons l ls => exact stop_cons.2 (by decide)
  rw [bind_ok hc, bind_ok (chr_ok _ _)]; rfl

theorem parseSchema_print (std : Std) (s : Schema) (h : SchemaWf s) (hl : ∀ l ∈ schemaLiterals s, LitOk std l) :
    parseSchema std (printSchema std s) = some s := by
  obtain ⟨h1, h2⟩ := h
  have key : ∃ w', (∀ c ∈ w', isMulti c = true) ∧ schemaParser std (printSchema std s) =
      (do let _ ← multi0; pure s : P Schema) w' := by
    unfold schemaParser printSchema
    by_cases hc : s.comment = []
    · obtain ⟨w', hw', e⟩ := parseTop_print std s.definitions h2 hl [] (by simp)
      rw [List.nil_append] at e
      refine ⟨w', hw', ?_⟩
      have e0 := opt_none (schemaComment_none std h2)
      unfold schemaComment at e0
      rw [if_pos hc, List.nil_append, bind_ok e0, bind_ok e]
      cases s with
      | mk com ds => simp only at hc; subst hc; rfl
    · obtain ⟨w', hw', e⟩ := parseTop_print std s.definitions h2 hl [] (by simp)
      rw [List.nil_append] at e
      refine ⟨w', hw', ?_⟩
      have e0 := opt_some (schemaComment_some h1 hc (printTop std s.definitions))
      unfold schemaComment at e0
      rw [if_neg hc]
      simp only [List.append_assoc, List.cons_append, List.nil_append]
      rw [bind_ok e0, bind_ok e]
      rfl
  obtain ⟨w', hw', e⟩ := key
  have hm : multi0 w' = .ok w' [] := by
    have := takeWhile_ok (n := 0) hw' (stop_nil isMulti) (by omega)
    rwa [List.append_nil] at this
  rw [bind_ok hm] at e
  unfold parseSchema
  rw [e]; rfl

end Mabo.Parse
