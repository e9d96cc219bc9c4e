import Verif.Parser.SchemaBroken
import Verif.Props.Literals
/-!
Properties of whole schema files and of the formatter: C41 (formatting keeps the schema), C42 (formatting twice), C43
(comments and attributes), C44 (every accepted file is well-formed), C45 (text determines schema).
All theorems hold for every choice of the standard-library parts in `Std`.
-/
namespace Mabo.Props
open Mabo.Ast Mabo.Spec Mabo.Parse

/-- The literals of a schema that survive formatting: no NUL in strings, floats printed with a point. (Integers and bytes
that were read from a file always survive.) -/
def SurvivingLiterals (std : Std) (s : Schema) : Prop := ∀ l ∈ schemaLiterals s,
  (∀ v, l = .string v → Char.ofNat 0 ∉ v.toList) ∧ (∀ f, l = .float f → FloatOk std.showFloat std.readFloat f)

theorem litOk_of_valid {std : Std} {l : Literal} (hv : LiteralValid l) (hs : ∀ v, l = .string v → Char.ofNat 0 ∉ v.toList)
    (hf : ∀ f, l = .float f → FloatOk std.showFloat std.readFloat f) : LitOk std l := by
  cases l with
  | bool b => trivial
  | int i => exact hv
  | float f => exact hf f rfl
  | string v => exact hs v rfl
  | bytes bs => exact hv

/-! ## C44: whatever is accepted is well-formed -/

/-- Every schema that is read from a file, whatever its text, is well-formed: names follow their patterns, no field list,
variant list, tuple or list of type arguments is empty, comment lines hold no line break, integers fit `i128`. -/
theorem C44_accepted_is_well_formed (std : Std) (text : Text) (s : Schema) (h : parseSchema std text = some s) :
    SchemaWf s ∧ ∀ l ∈ schemaLiterals s, LiteralValid l := parseSchema_inv std h

/-- Conversely, every well-formed schema has a text, unless it holds a literal that cannot be written. -/
theorem C44_well_formed_is_writable (std : Std) (s : Schema) (h : SchemaWf s)
    (hl : ∀ l ∈ schemaLiterals s, LiteralOk (FloatOk std.showFloat std.readFloat) l) :
    ∃ text, parseSchema std text = some s := ⟨_, parseSchema_print std s h hl⟩

/-! ## C41: formatting keeps the schema -/

/-- The formatter's output for any file it accepts is read as the same schema: same definitions in the same order with
the same names, ids, types, type parameters, values, comments and attributes. Missing from the full claim: files with a
NUL in a string or a float that is printed without a point. -/
theorem C41_fmt_preserves_partial (std : Std) (text : Text) (s : Schema) (h : parseSchema std text = some s)
    (hl : SurvivingLiterals std s) : parseSchema std (fmtFile std text) = some s := by
  have ⟨hw, hv⟩ := parseSchema_inv std h
  have hp : parseSchema std (printSchema std s) = some s :=
    parseSchema_print std s hw fun l hm => litOk_of_valid (hv l hm) (hl l hm).1 (hl l hm).2
  unfold fmtFile
  rw [h]
  simp only []
  split
  · exact h
  · exact hp

/-- In particular every file without constants and attributes keeps its schema. -/
theorem C41_without_literals_partial (std : Std) (text : Text) (s : Schema) (h : parseSchema std text = some s)
    (hl : schemaLiterals s = []) : parseSchema std (fmtFile std text) = some s :=
  C41_fmt_preserves_partial std text s h (by intro l hm; rw [hl] at hm; cases hm)

/-- A file that is not accepted is left as it is. -/
theorem C41_rejected_untouched (std : Std) (text : Text) (h : parseSchema std text = none) : fmtFile std text = text := by
  unfold fmtFile; rw [h]

/-- A well-formed schema is printed to a text that denotes it. -/
theorem C41_print_parse (std : Std) (s : Schema) (h : SchemaWf s)
    (hl : ∀ l ∈ schemaLiterals s, LiteralOk (FloatOk std.showFloat std.readFloat) l) :
    parseSchema std (printSchema std s) = some s := parseSchema_print std s h hl

/-- The claim is false in full: this file is accepted, but rejected once it has been formatted. -/
theorem C41_fails_for_nul : (parseSchema C37_std "const A: string = \"\\u{0}\";".toList).isSome = true ∧
    fmtFile C37_std "const A: string = \"\\u{0}\";".toList = "const A: string = \"\\0\";\n".toList ∧
    (parseSchema C37_std "const A: string = \"\\0\";\n".toList).isNone = true := by decide +kernel

/-- Standard-library parts that print the float `1.0` as Rust does. -/
def C41_std : Std := ⟨fun _ => 0x3ff0000000000000#64, fun _ => "1".toList, fun _ => false⟩

/-- The values of the constants of a schema that are integers or floats. -/
def numbers (s : Schema) : List (Int ⊕ BitVec 64) := (schemaLiterals s).filterMap fun
  | .int i => some (.inl i)
  | .float f => some (.inr f)
  | _ => none

/-- And the constant `1.0` becomes an integer. -/
theorem C41_fails_for_floats :
    (parseSchema C41_std "const A: f64 = 1.0;".toList).map numbers = some [.inr 0x3ff0000000000000#64] ∧
    fmtFile C41_std "const A: f64 = 1.0;".toList = "const A: f64 = 1;\n".toList ∧
    (parseSchema C41_std "const A: f64 = 1;\n".toList).map numbers = some [.inl 1] := by decide +kernel

/-! ## C42: formatting twice -/

/-- Formatting is idempotent: for every file, accepted or not (whose literals survive), a second run changes nothing. -/
theorem C42_idempotent_partial (std : Std) (text : Text)
    (hl : ∀ s, parseSchema std text = some s → SurvivingLiterals std s) :
    fmtFile std (fmtFile std text) = fmtFile std text := by
  cases h : parseSchema std text with
  | none => rw [C41_rejected_untouched std text h, C41_rejected_untouched std text h]
  | some s =>
    have h2 := C41_fmt_preserves_partial std text s h (hl s h)
    have e : fmtFile std text = printSchema std s := by
      unfold fmtFile; rw [h]; simp only []; split
      · assumption
      · rfl
    have e2 : fmtFile std (fmtFile std text) = printSchema std s := by
      generalize fmtFile std text = t at h2
      unfold fmtFile; rw [h2]; simp only []; split
      · assumption
      · rfl
    rw [e2, e]

/-- Files that differ only in layout are formatted to the same text. -/
theorem C42_canonical (std : Std) (t u : Text) (s : Schema) (ht : parseSchema std t = some s)
    (hu : parseSchema std u = some s) : fmtFile std t = fmtFile std u := by
  have e : ∀ v, parseSchema std v = some s → fmtFile std v = printSchema std s := by
    intro v hv
    unfold fmtFile; rw [hv]; simp only []; split
    · assumption
    · rfl
  rw [e t ht, e u hu]

/-! ## Exactly which files keep their schema, and idempotence -/

/-- Rust's `Display for i128` in terms of `toString`. -/
theorem toString_printInt (i : Int) : (toString i).toList = printInt i := by
  cases i with
  | ofNat n =>
    show (Nat.repr n).toList = if (n : Int) < 0 then _ else printNat n
    rw [if_neg (by omega), Nat.repr, String.toList_ofList]; rfl
  | negSucc n =>
    show ("-" ++ Nat.repr (n + 1)).toList = if Int.negSucc n < 0 then '-' :: printNat (n + 1) else _
    rw [if_pos (Int.negSucc_lt_zero n), String.toList_append, Nat.repr, String.toList_ofList (l := Nat.toDigits 10 (n + 1))]; rfl

open Classical in
/-- The literal with the same text that is not a float printed like an integer. -/
noncomputable def norm (std : Std) : Literal → Literal
  | .float f => if h : ∃ i : Int, std.showFloat f = printInt i then .int h.choose else .float f
  | l => l

theorem norm_print (std : Std) (l : Literal) : printLiteral std (norm std l) = printLiteral std l := by
  cases l with
  | float f =>
    simp only [norm]
    split
    · rename_i h; exact h.choose_spec.symm
    · rfl
  | _ => rfl

theorem broken_of_cut {std : Std} {l : Literal} (hs : ∃ c cs, printLiteral std l = c :: cs ∧ isSpace c = false)
    (h : ∀ r, LiteralEnd r → ∀ a m, parseLiteral std (printLiteral std l ++ r) ≠ .ok a m) : Broken std l := by
  intro r hr
  refine ⟨?_, h r hr⟩
  obtain ⟨c, cs, e, hc⟩ := hs
  rw [e]; exact stop_cons.2 hc

theorem norm_dichotomy (std : Std) (hforms : FloatForms std.showFloat std.readFloat) (l : Literal) (hv : LiteralValid l)
    (hz : ∀ f, l = .float f → std.showFloat f ≠ "-0".toList) :
    LitOk std (norm std l) ∨ Broken std (norm std l) := by
  cases l with
  | bool b => exact .inl trivial
  | int i => exact .inl hv
  | bytes bs => exact .inl hv
  | string v =>
    by_cases h : Char.ofNat 0 ∈ v.toList
    · refine .inr (broken_of_cut ⟨'"', _, rfl, by decide⟩ fun r hr a m he => ?_)
      rw [show norm std (.string v) = .string v from rfl, C37_nul_is_an_error std v h r] at he
      cases he
    · exact .inl h
  | float f =>
    by_cases h : ∃ i : Int, std.showFloat f = printInt i
    · have e : norm std (.float f) = .int h.choose := by simp only [norm]; rw [dif_pos h]
      rw [e]
      generalize h.choose = i
      by_cases hi : -2 ^ 127 ≤ i ∧ i < 2 ^ 127
      · exact .inl hi
      · refine .inr (broken_of_cut ?_ fun r hr a m he => ?_)
        · obtain ⟨c, cs, hc, hd⟩ := printInt_head i
          refine ⟨c, cs, hc, ?_⟩
          rcases hd with rfl | hd
          · decide
          · exact Bool.eq_false_iff.2 fun hc => by
              simp only [isDigit, isSpace, Bool.and_eq_true, decide_eq_true_eq, Bool.or_eq_true, beq_iff_eq] at hd hc
              rcases hc with rfl | rfl
              · exact absurd hd.1 (by decide)
              · exact absurd hd.1 (by decide)
        · rw [C37_range std i (by omega) r hr] at he
          cases he
    · have e : norm std (.float f) = .float f := by simp only [norm]; rw [dif_neg h]
      rw [e]
      rcases hforms f with hf | ⟨i, hi⟩ | hf | hf
      · exact .inl hf
      · exact absurd ⟨i, hi.trans (toString_printInt i)⟩ h
      · exact absurd hf (hz f rfl)
      · refine .inr (broken_of_cut ?_ fun r hr a m he => ?_)
        · show ∃ c cs, std.showFloat f = _ ∧ _
          simp only [List.mem_cons, List.not_mem_nil, or_false] at hf
          rcases hf with hf | hf | hf <;> rw [hf]
          · exact ⟨'N', _, rfl, by decide⟩
          · exact ⟨'i', _, rfl, by decide⟩
          · exact ⟨'-', _, rfl, by decide⟩
        · have he : parseLiteral std (std.showFloat f ++ r) = .ok a m := he
          simp only [List.mem_cons, List.not_mem_nil, or_false] at hf
          rcases hf with hf | hf | hf <;> rw [hf] at he <;> cases he

/-- The formatter's output for an accepted file. -/
theorem fmtFile_accepted (std : Std) {text : Text} {s : Schema} (h : parseSchema std text = some s) :
    fmtFile std text = printSchema std s := by
  unfold fmtFile; rw [h]; simp only []; split
  · assumption
  · rfl

/-- The literals of an accepted file hold no float printed as `-0`. -/
def NoNegativeZero (std : Std) (text : Text) : Prop :=
  ∀ s, parseSchema std text = some s → ∀ f, .float f ∈ schemaLiterals s → std.showFloat f ≠ "-0".toList

/-- What the formatter's output is read as: nothing, or the schema with some literals replaced by those with the same
text. -/
theorem fmt_reads (std : Std) (hforms : FloatForms std.showFloat std.readFloat) {text : Text} {s : Schema}
    (h : parseSchema std text = some s) (hz : NoNegativeZero std text) :
    parseSchema std (fmtFile std text) = none ∨
      (parseSchema std (fmtFile std text) = some (mapSchema (norm std) s) ∧
        ∀ l ∈ schemaLiterals s, LitOk std (norm std l)) := by
  have ⟨hw, hv⟩ := parseSchema_inv std h
  obtain ⟨h1, h2, h3⟩ := mapSchema_facts std (norm std) (norm_print std) s
  have hd : ∀ l ∈ schemaLiterals s, LitOk std (norm std l) ∨ Broken std (norm std l) := fun l hl =>
    norm_dichotomy std hforms l (hv l hl) fun f e => hz s h f (e ▸ hl)
  rw [fmtFile_accepted std h, ← h3]
  by_cases hb : ∃ l ∈ schemaLiterals s, Broken std (norm std l)
  · refine .inl (parseSchema_broken std _ (h1 hw) ?_ ?_)
    · intro l hl
      rw [h2] at hl
      obtain ⟨l', hl', rfl⟩ := List.mem_map.1 hl
      exact hd l' hl'
    · obtain ⟨l, hl, hb⟩ := hb
      exact ⟨norm std l, by rw [h2]; exact List.mem_map.2 ⟨l, hl, rfl⟩, hb⟩
  · have hok : ∀ l ∈ schemaLiterals s, LitOk std (norm std l) := fun l hl =>
      (hd l hl).resolve_right fun hb' => hb ⟨l, hl, hb'⟩
    refine .inr ⟨parseSchema_print std _ (h1 hw) fun l hl => ?_, hok⟩
    rw [h2] at hl
    obtain ⟨l', hl', rfl⟩ := List.mem_map.1 hl
    exact hok l' hl'

/-- C41, exactly: an accepted file (without `-0.0`) keeps its schema if and only if all its literals survive. -/
theorem C41_exact (std : Std) (hforms : FloatForms std.showFloat std.readFloat) (text : Text) (s : Schema)
    (h : parseSchema std text = some s) (hz : NoNegativeZero std text) :
    parseSchema std (fmtFile std text) = some s ↔ SurvivingLiterals std s := by
  refine ⟨fun hp => ?_, C41_fmt_preserves_partial std text s h⟩
  rcases fmt_reads std hforms h hz with hn | ⟨hs, hok⟩
  · rw [hn] at hp; cases hp
  · rw [hp] at hs
    injection hs with hs
    have e := (mapSchema_facts std (norm std) (norm_print std) s).2.1
    rw [← hs] at e
    have hfix : ∀ l ∈ schemaLiterals s, norm std l = l := by
      generalize schemaLiterals s = ls at e
      induction ls with
      | nil => intro l hl; cases hl
      | cons x xs ih =>
        rw [List.map_cons] at e
        injection e with e1 e2
        intro l hl
        rcases List.mem_cons.1 hl with rfl | hl
        · exact e1.symm
        · exact ih e2 l hl
    intro l hl
    have ho := hok l hl
    rw [hfix l hl] at ho
    exact ⟨fun v e => by subst e; exact ho, fun f e => by subst e; exact ho⟩

/-- C42: a second run of the formatter changes nothing, whatever the text, if its literals hold no `-0.0`. -/
theorem C42_idempotent_all_partial (std : Std) (hforms : FloatForms std.showFloat std.readFloat) (text : Text)
    (hz : NoNegativeZero std text) : fmtFile std (fmtFile std text) = fmtFile std text := by
  cases h : parseSchema std text with
  | none => rw [C41_rejected_untouched std text h, C41_rejected_untouched std text h]
  | some s =>
    rcases fmt_reads std hforms h hz with hn | ⟨hs, _⟩
    · exact C41_rejected_untouched std _ hn
    · rw [fmtFile_accepted std hs, fmtFile_accepted std h]
      exact (mapSchema_facts std (norm std) (norm_print std) s).2.2

/-- Standard-library parts with one float, negative zero. -/
def C42_std : Std := ⟨fun _ => 0x8000000000000000#64, fun _ => "-0".toList, fun _ => false⟩

/-- The full claim is false: the second run changes the output of the first. -/
theorem C42_fails_for_negative_zero :
    fmtFile C42_std "const A: f64 = -0.0;\n".toList = "const A: f64 = -0;\n".toList ∧
    fmtFile C42_std "const A: f64 = -0;\n".toList = "const A: f64 = 0;\n".toList := by decide +kernel

/-- The assumption on how floats are printed can be met (by a library that knows `1.0` and `0.5`). -/
def C42_forms_std : Std := ⟨fun _ => 0x3fe0000000000000#64,
  fun f => if f = 0x3fe0000000000000#64 then "0.5".toList else "1".toList, fun _ => false⟩

theorem C42_forms_example : FloatForms C42_forms_std.showFloat C42_forms_std.readFloat ∧
    NoNegativeZero C42_forms_std "const A: f64 = 0.5;\n".toList ∧
    (parseSchema C42_forms_std "const A: f64 = 0.5;\n".toList).isSome = true := by
  refine ⟨fun f => ?_, fun s _ f _ => ?_, by decide +kernel⟩
  · by_cases h : f = 0x3fe0000000000000#64
    · subst h
      exact .inl ⟨⟨[], ['0'], ['5'], rfl, .inl rfl, by simp, by simp, by decide, by decide⟩, rfl⟩
    · refine .inr (.inl ⟨1, ?_⟩)
      show (if _ then _ else _) = _
      rw [if_neg h]; decide
  · show (if _ then _ else _) ≠ _
    split <;> decide

/-! ## C45: the text determines the schema -/

/-- Different (well-formed, writable) schemas are printed differently. -/
theorem C45_print_injective (std : Std) (s t : Schema) (hs : SchemaWf s) (ht : SchemaWf t)
    (hls : ∀ l ∈ schemaLiterals s, LiteralOk (FloatOk std.showFloat std.readFloat) l)
    (hlt : ∀ l ∈ schemaLiterals t, LiteralOk (FloatOk std.showFloat std.readFloat) l)
    (h : printSchema std s = printSchema std t) : s = t := by
  have h1 := parseSchema_print std s hs hls
  rw [h, parseSchema_print std t ht hlt] at h1
  injection h1 with h1
  exact h1.symm

/-! ## C43: comments and attributes -/

/-- The text of a definition with comment lines and attributes written in front of it. -/
def annotated (std : Std) (com : List String) (as : List Attribute) (d : Definition) : Text :=
  printComment 0 com ++ printAttributes std 0 as ++ printDef std 0 d ++ ['\n']

/-- The definition has neither comment nor attributes of its own. -/
def Plain : Definition → Prop
  | .module com _ _ => com = []
  | .struct s => s.comment = [] ∧ s.attributes = []
  | .enum e => e.comment = [] ∧ e.attributes = []
  | .typeAlias a => a.comment = []
  | .const c => c.comment = []
  | .import _ => True

/-- Structs and enums. -/
def TakesAttributes : Definition → Prop
  | .struct _ | .enum _ => True
  | _ => False

/-- All definitions but imports. -/
def TakesComment : Definition → Prop
  | .import _ => False
  | _ => True

theorem plain_form (std : Std) {d : Definition} (h : Plain d) :
    ∃ c s, Starts c ∧ c ≠ '#' ∧ printDef std 0 d = c :: s := by
  cases d with
  | module com n ds =>
    obtain rfl : com = [] := h
    exact ⟨'m', _, ⟨by decide, by decide⟩, by decide, by rw [printDef]; rfl⟩
  | struct x =>
    exact ⟨'s', _, ⟨by decide, by decide⟩, by decide, by rw [printDef, printStruct, h.1, h.2]; rfl⟩
  | enum x =>
    exact ⟨'e', _, ⟨by decide, by decide⟩, by decide, by rw [printDef, printEnum, h.1, h.2]; rfl⟩
  | typeAlias a =>
    exact ⟨'t', _, ⟨by decide, by decide⟩, by decide, by rw [printDef, printAlias, show a.comment = [] from h]; rfl⟩
  | const k =>
    exact ⟨'c', _, ⟨by decide, by decide⟩, by decide, by rw [printDef, printConst, show k.comment = [] from h]; rfl⟩
  | «import» i => exact ⟨'u', _, ⟨by decide, by decide⟩, by decide, by rw [printDef, printImport]; rfl⟩

theorem withs_withs (d : Definition) (c c' : List String) (a a' : List Attribute) :
    withAttributes (withComment (withAttributes (withComment d c) a) c') a' = withAttributes (withComment d c') a' := by
  cases d <;> rfl

/-- What a definition with annotations is read as. -/
theorem annotated_parse (std : Std) {com : List String} {as : List Attribute} {d : Definition} (hc : CommentWf com)
    (ha : AttrsWf as) (hl : ∀ l ∈ attrsLiterals as, LitOk std l) (hd : DefWf d) (hld : ∀ l ∈ defLiterals d, LitOk std l)
    (hp : Plain d) : parseSchema std (annotated std com as d) =
      some { definitions := [withAttributes (withComment d com) as] } := by
  obtain ⟨c, s, hs, hn, e⟩ := plain_form std hp
  have h1 := parseDefinition_print std d hd hld 0 [] ['\n'] (by simp)
  -- the definition without annotations
  obtain ⟨d0, hk, hd0⟩ : ∃ d0, defKind std (parseDefinition std) (c :: (s ++ ['\n'])) = .ok d0 (defTail d ++ ['\n']) ∧
      d = withAttributes (withComment d0 []) [] := by
    rw [e, List.nil_append, List.cons_append, parseDefinition_eq] at h1
    unfold defBody at h1
    obtain ⟨i1, hi1, e1⟩ := ws_comments (level := 0) nil_comment (w := []) (by simp) blank_nil hs (s := s ++ ['\n'])
    have e1 : ws parseComments (c :: (s ++ ['\n'])) = .ok [] (i1 ++ c :: (s ++ ['\n'])) := e1
    obtain ⟨i2, hi2, e2⟩ := ws_attributes std (level := 0) (as := []) trivial (fun _ h => by cases h) hi1 blank_nil hs hn
      (s := s ++ ['\n'])
    have e2 : ws (parseAttributes std) (i1 ++ c :: (s ++ ['\n'])) = .ok [] (i2 ++ c :: (s ++ ['\n'])) := e2
    rw [bind_ok e1, bind_ok e2] at h1
    obtain ⟨d0, m, h3, h4⟩ := bind_eq_ok h1
    obtain ⟨h5, h6⟩ := pure_eq_ok h4
    rw [sp_blank hi2, sp_stop (stop_cons.2 (multi_space hs.1))] at h3
    exact ⟨d0, by rw [h3, h6], h5.symm⟩
  have h2 := def_frame std (level := 0) (com := com) (as := as) hc ha hl (w := []) (by simp) hs hn hk
  have ht : annotated std com as d = [] ++ (printComment 0 com ++ (printAttributes std 0 as ++ (indent 0 ++ c :: (s ++ ['\n'])))) := by
    unfold annotated
    rw [e]; simp [indent]
  rw [← ht] at h2
  have hd' : withAttributes (withComment d0 com) as = withAttributes (withComment d com) as := by
    rw [hd0, withs_withs]
  rw [hd'] at h2
  have hw : ∀ x ∈ defTail d ++ ['\n'], isMulti x = true := fun x hx => by
    rcases List.mem_append.1 hx with hx | hx
    · exact defTail_multi d x hx
    · rw [List.mem_singleton.1 hx]; decide
  have hend : parseDefinition std (defTail d ++ ['\n']) = .back := by
    rw [← ws_parseDefinition, ← List.append_nil (defTail d ++ ['\n']), ws_blanks hw]; rfl
  have hmany := many_ok (eats_parseDefinition std) h2 (many_back hend)
  have hnone : schemaComment (annotated std com as d) = .back := by
    obtain ⟨c', s', hs', e'⟩ : ∃ c' s', Starts c' ∧
        printAttributes std 0 as ++ (indent 0 ++ c :: (s ++ ['\n'])) = indent 0 ++ c' :: s' := by
      cases as with
      | nil => exact ⟨c, _, hs, rfl⟩
      | cons a as => exact ⟨'#', _, ⟨by decide, by decide⟩, by
          simp only [printAttributes, List.append_assoc, List.cons_append]; rfl⟩
    obtain ⟨i, hi, hcom⟩ := ws_comments (level := 0) hc (w := []) (by simp) (blank_indent 0) hs' (s := s')
    rw [ht, e']
    unfold schemaComment
    rw [bind_ok hcom]
    refine bind_back ?_
    cases i with
    | nil => exact chr_back _ (by rintro rfl; exact absurd hs'.1 (by decide))
    | cons x xs =>
      refine chr_back _ ?_
      rintro rfl
      exact absurd (hi '\n' (by simp)) (by decide)
  have e0 := opt_none hnone
  unfold schemaComment at e0
  have hm : multi0 (defTail d ++ ['\n']) = .ok (defTail d ++ ['\n']) [] := by
    have := takeWhile_ok (n := 0) hw (stop_nil isMulti) (by omega)
    rwa [List.append_nil] at this
  unfold parseSchema schemaParser
  rw [bind_ok e0, bind_ok hmany, bind_ok hm]
  rfl

theorem fmt_annotated (std : Std) {com : List String} {as : List Attribute} {d : Definition} (hc : CommentWf com)
    (ha : AttrsWf as) (hl : ∀ l ∈ attrsLiterals as, LitOk std l) (hd : DefWf d) (hld : ∀ l ∈ defLiterals d, LitOk std l)
    (hp : Plain d) : fmtFile std (annotated std com as d) =
      printDef std 0 (withAttributes (withComment d com) as) ++ ['\n'] := by
  unfold fmtFile
  rw [annotated_parse std hc ha hl hd hld hp]
  simp only []
  split
  · rename_i h; rw [h]; rfl
  · rfl

/-- Structs and enums keep the comment and the attributes in front of them: a file with one such definition is left as
it is. Missing from the full claim: the other kinds of definitions, see below. -/
theorem C43_kept_partial (std : Std) (com : List String) (as : List Attribute) (d : Definition) (hc : CommentWf com)
    (ha : AttrsWf as) (hl : ∀ l ∈ attrsLiterals as, LitOk std l) (hd : DefWf d) (hld : ∀ l ∈ defLiterals d, LitOk std l)
    (hp : Plain d) (ht : TakesAttributes d) : fmtFile std (annotated std com as d) = annotated std com as d := by
  rw [fmt_annotated std hc ha hl hd hld hp]
  cases d with
  | struct s =>
    show printStruct std 0 _ ++ _ = _ ++ printStruct std 0 s ++ _
    unfold printStruct
    rw [hp.1, hp.2]
    simp [printComment, printAttributes]
  | enum e =>
    show printEnum std 0 _ ++ _ = _ ++ printEnum std 0 e ++ _
    unfold printEnum
    rw [hp.1, hp.2]
    simp [printComment, printAttributes]
  | _ => exact ht.elim

/-- Modules, aliases and constants keep the comment but lose the attributes. -/
theorem C43_attributes_lost (std : Std) (com : List String) (as : List Attribute) (d : Definition) (hc : CommentWf com)
    (ha : AttrsWf as) (hl : ∀ l ∈ attrsLiterals as, LitOk std l) (hd : DefWf d) (hld : ∀ l ∈ defLiterals d, LitOk std l)
    (hp : Plain d) (ht : ¬ TakesAttributes d) (htc : TakesComment d) :
    fmtFile std (annotated std com as d) = annotated std com [] d := by
  rw [fmt_annotated std hc ha hl hd hld hp]
  cases d with
  | module com' n ds =>
    obtain rfl : com' = [] := hp
    show printDef std 0 (.module com n ds) ++ _ = _ ++ printDef std 0 (.module [] n ds) ++ _
    rw [printDef, printDef]
    simp [printComment, printAttributes]
  | typeAlias a =>
    show printAlias 0 _ ++ _ = _ ++ printAlias 0 a ++ _
    unfold printAlias
    rw [show a.comment = [] from hp]
    simp [printComment, printAttributes]
  | const k =>
    show printConst std 0 _ ++ _ = _ ++ printConst std 0 k ++ _
    unfold printConst
    rw [show k.comment = [] from hp]
    simp [printComment, printAttributes]
  | struct s => exact absurd trivial ht
  | enum s => exact absurd trivial ht
  | «import» i => exact htc.elim

/-- Imports lose both. -/
theorem C43_import_comment_lost (std : Std) (com : List String) (as : List Attribute) (i : Import) (hc : CommentWf com)
    (ha : AttrsWf as) (hl : ∀ l ∈ attrsLiterals as, LitOk std l) (hd : ImportWf i) :
    fmtFile std (annotated std com as (.import i)) = annotated std [] [] (.import i) := by
  rw [fmt_annotated std (d := .import i) hc ha hl (by rw [DefWf]; exact hd)
    (fun _ h => by rw [defLiterals] at h; cases h) trivial]
  rfl

/-- So the formatter deletes text: from this file, all but the last line. -/
theorem C43_fails : fmtFile C37_std "/// Needed for Foo.\n#[since = 3]\nuse foo::Foo;\n".toList = "use foo::Foo;\n".toList ∧
    fmtFile C37_std "#[since = 3]\ntype A = u8;\n".toList = "type A = u8;\n".toList := by decide +kernel

/-- A file with every kind of definition. -/
def C41_text : Text :=
  ("/// A schema.\n\n/// First.\n#[a, b(c = 1, d), e = \"x\"]\nstruct Foo<T, U,> {\n    /// Field.\n" ++
   "    a: vec<T> @1,\n    b: (u8, [U; 4]) @2\n}\n\nmod m {\n    enum E {\n        A @1,\n        B(u32 @1) @2,\n    }\n\n" ++
   "    const N: i8 = -3;\n    use a::b::C;}\n\ntype X = foo::Bar<u8>;\n").toList

/-- What these theorems speak about: the file is read and formatted to itself; with another layout it is formatted to
the first one. -/
theorem C41_example : (parseSchema C37_std C41_text).isSome = true ∧ fmtFile C37_std C41_text = C41_text ∧
    fmtFile C37_std ("/// A schema.\n\n\n\n///First.\n#[a,b( c=1,d ) ,  e=\"x\"]  \n".toList) =
      "/// A schema.\n\n\n\n///First.\n#[a,b( c=1,d ) ,  e=\"x\"]  \n".toList ∧
    fmtFile C37_std ("/// A schema.\n\n\n\n///First.\n#[a,b( c=1,d ) ,  e=\"x\"]\n   struct  Foo<T,\n U> {a:u8@1\n}\nmod m{}").toList =
      "/// A schema.\n\n/// First.\n#[a, b(c = 1, d), e = \"x\"]\nstruct Foo<T, U> {\n    a: u8 @1\n}\n\nmod m {\n}\n\n".toList := by
  decide +kernel

end Mabo.Props
