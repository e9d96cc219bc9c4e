import Verif.Parser.ErrorsDefs
import Verif.Props.Index
/-! Properties of the syntax errors of schema files: C59 (place and message), C60 (what a message is about), C61 (the range of a
declaration). -/
namespace Mabo.Props
open Mabo.Failing Mabo.Spec Mabo.Spec.Doc Mabo.Spec.Diag Mabo.Spec.Errors
open Mabo.Parse (Text Std isSpace isMulti isLower isUpper isDigit)

/-! ## C59: the place and the message of a syntax error -/

/-- The parser with errors is the parser: it accepts the same texts with the same results. -/
theorem C59_same (std : Std) (text : Text) (schema : Ast.Schema) :
    parseSchema std text = .ok schema ↔ Parse.parseSchema std text = some schema := by
  rw [← parseSchema_same]
  cases parseSchema std text with
  | ok s => simp [Except.toOption]
  | error e => simp [Except.toOption]

theorem error_of {std : Std} {text : Text} (h : Parse.parseSchema std text = none) : ∃ e, parseSchema std text = .error e := by
  have h1 := parseSchema_same std text
  rw [h] at h1
  cases hp : parseSchema std text with
  | ok s => rw [hp] at h1; cases h1
  | error e => exact ⟨e, rfl⟩

/-- Every text that is no schema: the diagnostic is at a place of the text, behind all definitions that can be read and in the
first that cannot, and what its message says is the case there. -/
theorem C59_explained (std : Std) (text : Text) (h : Parse.parseSchema std text = none) :
    ∃ u v, text = u ++ v ∧ (failure std text).1 = v ∧ Explains std u v (failure std text).2 ∧ InFirstBroken std text v := by
  obtain ⟨e, he⟩ := error_of h
  have hf : failure std text = schemaReport text e := by rw [Failing.failure, he]
  rw [hf]
  unfold parseSchema at he
  cases hp : (do let s ← schemaParser std; eof; pure s : F SchemaCause Ast.Schema) text with
  | ok s r => rw [hp] at he; cases he
  | fail b e' r =>
    rw [hp] at he
    cases he
    obtain ⟨u, h1, h2, h3⟩ := schema_says std hp
    exact ⟨u, _, h1, rfl, h2, h3⟩

/-- What the language server needs to know about syntax errors holds. -/
theorem C59_contract (std : Std) : FailureContract (failure std) := by
  intro text
  cases h : Parse.parseSchema std text with
  | none =>
    obtain ⟨u, v, h1, h2, _⟩ := C59_explained std text h
    exact ⟨u, by rw [h2, h1]⟩
  | some schema =>
    rw [Failing.failure, (C59_same std text schema).2 h]
    exact List.nil_suffix

/-- The diagnostic that the language server shows for a file that is no schema, with the positions of the client. -/
theorem C59_shown {Uri : Type} (enc : Encoding) (position : Text → Nat → Option Lsp.Position) (hp : PositionContract enc position)
    (env : Lsp.Env) (hfail : env.failure = failure env.std) (text : Text) (file : Uri)
    (h : Parse.parseSchema env.std text = none) :
    ∃ u v m, text = u ++ v ∧ Explains env.std u v m ∧ InFirstBroken env.std text v ∧
      Lsp.diagnose env position text text file = .ok (some ⟨(posOf enc u, posOf enc u), m, []⟩) := by
  obtain ⟨u, v, h1, h2, h3, h4⟩ := C59_explained env.std text h
  refine ⟨u, v, _, h1, h3, h4, ?_⟩
  have := Lsp.expectRange_ok hp (text := text) h1 h1
  simp only [Lsp.diagnose, spanned_none h, hfail, h2, this, Lsp.Outcome.bind]


/-! ### Examples -/

/-- A struct that can be read, and one whose first field has no type. -/
def C59_text : Text := "struct A(u8 @1)\n\nstruct B {\n  a: ? @1,\n  b: u8 @2,\n}\n".toList

theorem C59_example : failure C39_std C59_text = (C59_text.drop 33, "Failed to parse type definition") ∧
    (Parse.parseSchema C39_std C59_text).isNone = true := by
  constructor <;> decide +kernel

/-- A name in a module. -/
def C59_text' : Text := "mod a {\n  struct b\n}\n".toList

theorem C59_example' : failure C39_std C59_text' = (C59_text'.drop 17, "Invalid struct name") ∧
    (Parse.parseSchema C39_std C59_text').isNone = true := by
  constructor <;> decide +kernel

/-! ## C60: what a message is about -/

theorem offset_ne {n : Nat} {m : String} (h : m.toList.head? ≠ some 'P') : "Parser error at offset " ++ Nat.repr n ≠ m := by
  intro he
  apply h
  rw [← he, String.toList_append]
  rfl

/-- What the messages are about, for all texts: a message about a name is shown behind the keyword or the bracket where the name
has to start, and there is no letter that it can start with; a message about a type, a literal, fields, type parameters, an enum,
a constant or an alias is shown where there is such a thing that cannot be read.

Missing: the message about structs is shown only for attributes, the one about ids only for modules, that of type parameters
says nothing, and those of the imports are only offsets (`C60_struct`, `C60_id`, `C60_refuted`). -/
theorem C60_about_partial (std : Std) (text : Text) (h : Parse.parseSchema std text = none) :
    ∃ u v, text = u ++ v ∧ (failure std text).1 = v ∧
      ((failure std text).2 = "Invalid struct name" → Behind "struct" u ∧ NotAt isUpper v) ∧
      ((failure std text).2 = "Invalid enum name" → Behind "enum" u ∧ NotAt isUpper v) ∧
      ((failure std text).2 = "Invalid alias name" → Behind "type" u ∧ NotAt isUpper v) ∧
      ((failure std text).2 = "Invalid const name" → Behind "const" u ∧ NotAt isUpper v) ∧
      ((failure std text).2 = "Invalid module name" → Behind "mod" u ∧ NotAt isLower v) ∧
      ((failure std text).2 = "Invalid segment name" → Behind "use" u ∧ NotAt isLower v) ∧
      ((failure std text).2 = "Invalid field name" → (∃ u' b, u = u' ++ '{' :: b ∧ Errors.Blank b) ∧ NotAt isLower v) ∧
      ((failure std text).2 = "Invalid variant name" → (∃ u' b, u = u' ++ '{' :: b ∧ Errors.Blank b) ∧ NotAt isUpper v) ∧
      ((failure std text).2 = "Failed to parse type definition" →
        Broken Parse.parseType (fun b _ => After [':', '=', '(', ','] b) u v) ∧
      ((failure std text).2 = "Failed to parse literal value" → Broken (Parse.parseLiteral std) (fun b _ => After ['='] b) u v) ∧
      ((failure std text).2 = "Failed to parse fields declaration" →
        Broken Parse.parseFields (fun _ s => s = [] ∨ s.head? = some '{' ∨ s.head? = some '(') u v) ∧
      ((failure std text).2 = "Failed to parse generics declaration" →
        Broken Parse.parseGenerics (fun _ s => s.head? = some '<') u v) ∧
      ((failure std text).2 = "Failed to parse enum declaration" → Broken Parse.parseEnum (fun _ => Opens "enum") u v) ∧
      ((failure std text).2 = "Failed to parse const declaration" →
        Broken (Parse.parseConst std) (fun _ => Opens "const") u v) ∧
      ((failure std text).2 = "Failed to parse type alias declaration" →
        Broken Parse.parseAlias (fun _ => Opens "type") u v) := by
  obtain ⟨u, v, h1, h2, h3, _⟩ := C59_explained std text h
  refine ⟨u, v, h1, h2, ?_⟩
  revert h3
  generalize (failure std text).2 = m
  intro h3
  cases h3 with
  | structName a b => simp [a, b]
  | enumName a b => simp [a, b]
  | aliasName a b => simp [a, b]
  | constName a b => simp [a, b]
  | moduleName a b => simp [a, b]
  | segmentName a b => simp [a, b]
  | fieldName a b => exact ⟨by simp, by simp, by simp, by simp, by simp, by simp, fun _ => ⟨⟨_, _, rfl, a⟩, b⟩, by simp⟩
  | variantName a b => exact ⟨by simp, by simp, by simp, by simp, by simp, by simp, by simp, fun _ => ⟨⟨_, _, rfl, a⟩, b⟩, by simp⟩
  | parameterName a b => simp
  | integerRange => simp
  | integerSign => simp
  | semicolon => simp
  | type a => simp [a]
  | literal a => simp [a]
  | fields a => simp [a]
  | generics a => simp [a]
  | enum a => simp [a]
  | const a => simp [a]
  | alias a => simp [a]
  | «attribute» a => simp
  | module a => simp
  | «import» a b =>
    refine ⟨?_, ?_, ?_, ?_, ?_, ?_, ?_, ?_, ?_, ?_, ?_, ?_, ?_, ?_, ?_⟩ <;> exact fun h => absurd h (offset_ne (by decide))
  | nothing a b c d =>
    refine ⟨?_, ?_, ?_, ?_, ?_, ?_, ?_, ?_, ?_, ?_, ?_, ?_, ?_, ?_, ?_⟩ <;> exact fun h => absurd h (offset_ne (by decide))

/-- The message about structs is never about a struct: it is shown for attributes that cannot be read. -/
theorem C60_struct (std : Std) (text : Text) (h : Parse.parseSchema std text = none)
    (hm : (failure std text).2 = "Failed to parse struct declaration") :
    ∃ u v, text = u ++ v ∧ (failure std text).1 = v ∧ Broken (Parse.parseAttribute std) (fun _ s => "#[".toList <+: s) u v := by
  obtain ⟨u, v, h1, h2, h3, _⟩ := C59_explained std text h
  refine ⟨u, v, h1, h2, ?_⟩
  revert h3 hm
  generalize (failure std text).2 = m
  intro hm h3
  cases h3 with
  | «attribute» a => exact a
  | «import» a b => exact absurd hm (offset_ne (by decide))
  | nothing a b c d => exact absurd hm (offset_ne (by decide))
  | _ => simp at hm

/-- The message about ids is never about an id: it is shown for modules that cannot be read. -/
theorem C60_id (std : Std) (text : Text) (h : Parse.parseSchema std text = none)
    (hm : (failure std text).2 = "Failed to parse id declaration") :
    ∃ u v, text = u ++ v ∧ (failure std text).1 = v ∧
      Broken (Parse.parseModule (Parse.parseDefinition std)) (fun _ => Opens "mod") u v := by
  obtain ⟨u, v, h1, h2, h3, _⟩ := C59_explained std text h
  refine ⟨u, v, h1, h2, ?_⟩
  revert h3 hm
  generalize (failure std text).2 = m
  intro hm h3
  cases h3 with
  | module a => exact a
  | «import» a b => exact absurd hm (offset_ne (by decide))
  | nothing a b c d => exact absurd hm (offset_ne (by decide))
  | _ => simp at hm

/-- The attribute is wrong, the file has no struct; the module is not closed, the file has no id; a type parameter has to be
upper case; a name is wrong, but it is the one of the second field. -/
theorem C60_examples :
    failure C39_std "#[A]\nenum A {\n  B @1,\n}\n".toList =
      ("A]\nenum A {\n  B @1,\n}\n".toList, "Failed to parse struct declaration") ∧
    failure C39_std "mod a {\n".toList = ([], "Failed to parse id declaration") ∧
    failure C39_std "struct A<b>\n".toList = ("b>\n".toList, "TODO!") ∧
    failure C39_std "struct A {\n  a: u8 @1,\n  B: u8 @2,\n}\n".toList =
      ("B: u8 @2,\n}\n".toList, "Failed to parse fields declaration") := by
  refine ⟨?_, ?_, ?_, ?_⟩ <;> decide +kernel

/-- A message that names structs is shown for a text without `struct`. -/
theorem C60_refuted : ¬ ∀ (std : Std) (text : Text), Parse.parseSchema std text = none →
    (failure std text).2 = "Failed to parse struct declaration" → ∃ u v, text = u ++ v ∧ Opens "struct" v := by
  intro h
  have hn : Parse.parseSchema C39_std "#[A]\nenum A {\n  B @1,\n}\n".toList = none := by
    have : (Parse.parseSchema C39_std "#[A]\nenum A {\n  B @1,\n}\n".toList).isNone = true := by decide +kernel
    exact Option.isNone_iff_eq_none.1 this
  obtain ⟨u, v, h1, c, r, h2, _⟩ := h C39_std _ hn (congrArg Prod.snd C60_examples.1)
  have h3 : 's' ∈ "#[A]\nenum A {\n  B @1,\n}\n".toList := by
    rw [h1, h2]
    exact List.mem_append_right _ (List.mem_append_left _ (by decide))
  exact absurd h3 (by decide)

/-! ## C61: the range of a declaration that cannot be parsed -/

/-- The `Range<usize>` in bytes that `at` holds (location.rs:8-26, structs.rs:29, enums.rs:29), from the start of the text. -/
def rangeOf (text : Text) (place : At) : Nat × Nat :=
  (bytes text - bytes place.start, match place.stop with
    | .here rest => bytes text - bytes rest
    | .offset n => n)

/-- The first of the characters that the text contains ends it: what is up to it and with it. -/
def UpTo (chars : List Char) (s part : Text) : Prop :=
  ∃ pre c post a b, chars = pre ++ c :: post ∧ (∀ d ∈ pre, d ∉ s) ∧ s = a ++ c :: b ∧ c ∉ a ∧ part = a ++ [c]

theorem offsetFor_none {c : Char} : ∀ {s : Text}, offsetFor c s = none → c ∉ s
  | [], _ => by simp
  | d :: s, h => by
    rw [offsetFor] at h
    by_cases hd : d = c
    · rw [if_pos hd] at h; cases h
    · rw [if_neg hd] at h
      have := offsetFor_none (Option.map_eq_none_iff.1 h)
      simp [this, Ne.symm hd]

theorem offsetFor_some {c : Char} : ∀ {s : Text} {n : Nat}, offsetFor c s = some n →
    ∃ a b, s = a ++ c :: b ∧ c ∉ a ∧ n = bytes a
  | [], _, h => by cases h
  | d :: s, n, h => by
    rw [offsetFor] at h
    by_cases hd : d = c
    · rw [if_pos hd] at h
      cases h
      exact ⟨[], s, by rw [hd]; rfl, by simp, rfl⟩
    · rw [if_neg hd] at h
      obtain ⟨m, h1, rfl⟩ := Option.map_eq_some_iff.1 h
      obtain ⟨a, b, rfl, h3, rfl⟩ := offsetFor_some h1
      exact ⟨d :: a, b, rfl, by simp [h3, Ne.symm hd], by simp [bytes]⟩

/-- Where `fromUntil` ends: in the declaration, but counted from the start of the declaration. -/
theorem fromUntil_range (chars : List Char) (u v : Text) (hc : ∀ c ∈ chars, c.utf8Size = 1) :
    (∃ part, UpTo chars v part ∧ rangeOf (u ++ v) (fromUntil chars v) = (bytes u, bytes part)) ∨
    ((∀ c ∈ chars, c ∉ v) ∧ rangeOf (u ++ v) (fromUntil chars v) = (bytes u, bytes u)) := by
  have hb : bytes (u ++ v) - bytes v = bytes u := by simp [bytes]
  cases h : chars.findSome? fun c => offsetFor c v with
  | none =>
    refine .inr ⟨fun c hm => offsetFor_none (List.findSome?_eq_none_iff.1 h c hm), ?_⟩
    simp only [rangeOf, fromUntil, h, hb]
  | some n =>
    obtain ⟨pre, c, post, h1, h2, h3⟩ := List.findSome?_eq_some_iff.1 h
    obtain ⟨a, b, h4, h5, h6⟩ := offsetFor_some h2
    refine .inl ⟨a ++ [c], ⟨pre, c, post, a, b, h1, fun d hd => offsetFor_none (h3 d hd), h4, h5, rfl⟩, ?_⟩
    have : c.utf8Size = 1 := hc c (by rw [h1]; simp)
    simp only [rangeOf, fromUntil, h, hb, h6]
    simp [bytes, this]

/-- Which declaration an error is about (the keyword), and the place that the error has for it. -/
def declared : DefinitionError → Option (String × At)
  | .module place _ => some ("mod", place)
  | .struct place _ => some ("struct", place)
  | .enum place _ => some ("enum", place)
  | .const place _ => some ("const", place)
  | .alias place _ => some ("type", place)
  | .import place _ => some ("use", place)
  | _ => none

/-- The characters that end a declaration, as far as its place is concerned; none for enums and aliases. -/
def closers : String → Option (List Char)
  | "mod" => some ['}', '\n']
  | "struct" => some ['}', '\n']
  | "const" => some [';']
  | "use" => some [';']
  | _ => none

/-- The place that the errors of the kinds of declarations have, for a declaration at `v` in which the parser stopped at `r`. -/
def placeFor (keyword : String) (v r : Text) : At := match closers keyword with
  | some chars => fromUntil chars v
  | none => atStop r

theorem declaration_place {E α : Type} {w : String} {f : Text → Text → E → At × E} {p : F E α} [FromInput E] {s r : Text} {e : At × E}
    (h : mapErrAt f (do lit w; let _ ← space1; cutErr p : F E α) s = .fail true e r) :
    Opens w s ∧ (∃ c, e = f s r c) := by
  obtain ⟨e', h1, h2⟩ := mapErrAt_fail h
  obtain ⟨x, blanks, m, hs, hx, hb, hc, _⟩ := keyword_fail h1
  exact ⟨opens_of hs hx hb hc, e', h2⟩

theorem definition_place (std : Std) {s r : Text} {e : DefinitionError} (h : parseDefinition std s = .fail true e r) :
    ∀ w place, declared e = some (w, place) → ∃ v, v <:+ s ∧ Opens w v ∧ place = placeFor w v r := by
  rw [parseDefinition_eq] at h
  rcases bind_fail h with h | ⟨_, m1, h1, h⟩
  · exact absurd h fun h => wsComments_ok h
  have s1 := suf_wsComments _ _ _ h1
  rcases bind_fail h with h | ⟨_, m2, h2, h⟩
  · rw [ws_run] at h
    obtain ⟨e', h3, h4⟩ := mapErr_fail h
    subst h4
    intro w place hd
    cases hd
  have s2 := (suf_ws (suf_sim (sim_mapErr (sim_parseAttributes std)) (Lsp.suf_parseAttributes std)) _ _ _ h2).trans s1
  rcases bind_fail h with h | ⟨_, _, _, h⟩
  · rw [sp_run] at h
    have s3 := (suf_ws_drop m2 isSpace).trans s2
    revert h
    generalize m2.dropWhile isSpace = t at s3 ⊢
    intro h
    rcases bind_fail h with h | ⟨d, t', h3, hk⟩
    · cases (peekAny_fail h).1
    have ht : t' = t := by
      cases t with
      | nil => cases h3
      | cons x t => cases h3; rfl
    subst ht
    clear h
    have h := hk
    clear hk
    rcases ite_fail h with ⟨_, h⟩ | ⟨_, h⟩
    · obtain ⟨e', h4, h5⟩ := mapErr_fail h
      subst h5
      intro w place hd
      cases hd
      obtain ⟨h6, c, h7⟩ := declaration_place h4
      exact ⟨t', s3, h6, by rw [h7]; rfl⟩
    rcases ite_fail h with ⟨_, h⟩ | ⟨_, h⟩
    · rcases bind_fail h with h | ⟨_, _, _, h⟩
      · obtain ⟨e', h4, h5⟩ := mapErr_fail h
        subst h5
        intro w place hd
        cases hd
        obtain ⟨h6, c, h7⟩ := declaration_place h4
        exact ⟨t', s3, h6, by rw [h7]; rfl⟩
      · cases h
    rcases ite_fail h with ⟨_, h⟩ | ⟨_, h⟩
    · rcases bind_fail h with h | ⟨_, _, _, h⟩
      · obtain ⟨e', h4, h5⟩ := mapErr_fail h
        subst h5
        intro w place hd
        cases hd
        obtain ⟨h6, c, h7⟩ := declaration_place h4
        exact ⟨t', s3, h6, by rw [h7]; rfl⟩
      · cases h
    rcases ite_fail h with ⟨_, h⟩ | ⟨_, h⟩
    · rcases bind_fail h with h | ⟨_, _, _, h⟩
      · obtain ⟨e', h4, h5⟩ := mapErr_fail h
        subst h5
        intro w place hd
        cases hd
        obtain ⟨h6, c, h7⟩ := declaration_place h4
        exact ⟨t', s3, h6, by rw [h7]; rfl⟩
      · cases h
    rcases ite_fail h with ⟨_, h⟩ | ⟨_, h⟩
    · rcases bind_fail h with h | ⟨_, _, _, h⟩
      · obtain ⟨e', h4, h5⟩ := mapErr_fail h
        subst h5
        intro w place hd
        cases hd
        obtain ⟨h6, c, h7⟩ := declaration_place h4
        exact ⟨t', s3, h6, by rw [h7]; rfl⟩
      · cases h
    rcases ite_fail h with ⟨_, h⟩ | ⟨_, h⟩
    · rcases bind_fail h with h | ⟨_, _, _, h⟩
      · obtain ⟨e', h4, h5⟩ := mapErr_fail h
        subst h5
        intro w place hd
        cases hd
        obtain ⟨h6, c, h7⟩ := declaration_place h4
        exact ⟨t', s3, h6, by rw [h7]; rfl⟩
      · cases h
    · cases (fail_fail h).1
  · cases h

theorem schema_place (std : Std) {text : Text} {e : DefinitionError} (h : parseSchema std text = .error (.definition e)) :
    ∃ s r, s <:+ text ∧ parseDefinition std s = .fail true e r := by
  unfold parseSchema at h
  cases hp : (do let s ← schemaParser std; eof; pure s : F SchemaCause Ast.Schema) text with
  | ok s r => rw [hp] at h; cases h
  | fail b e' r =>
    rw [hp] at h
    cases h
    rcases bind_fail hp with h | ⟨sc, m, h1, h⟩
    · rcases bind_fail h with h | ⟨o, body, h1, h⟩
      · obtain ⟨_, h⟩ := opt_fail h
        rcases bind_fail h with h | ⟨_, _, _, h⟩
        · exact absurd h fun h => wsComments_ok h
        rcases bind_fail h with h | ⟨_, _, _, h⟩
        · cases (chr_fail h).1
        · cases h
      have hsuf : body <:+ text := suf_sim (sim_opt header_sim) (Lsp.suf_opt (Lsp.suf_bind (Lsp.suf_ws Lsp.suf_parseComments) fun _ =>
        Lsp.suf_bind (Lsp.suf_chr _) fun _ => Lsp.suf_pure _)) _ _ _ h1
      rcases bind_fail h with h | ⟨_, _, _, h⟩
      · rcases definitions_reads std (n := body.length + 1) (s := body) (by omega) with ⟨ds, rest, h2, _⟩ | ⟨e', r', ds, rest, h2, h3, h4, h5⟩
        · rw [many, h2] at h; cases h
        · rw [many, h2] at h
          cases h
          exact ⟨rest, _, h5.trans hsuf, h4⟩
      · rcases bind_fail h with h | ⟨_, _, _, h⟩
        · cases (takeWhile_fail h).1
          have := (takeWhile_fail h).2.2.2; omega
        · cases h
    · rcases bind_fail h with he | ⟨_, _, _, h⟩
      · by_cases hm : m = []
        · rw [hm] at he; cases he
        · rw [eof, if_neg hm] at he; cases he
      · cases h

/-- Every declaration in a text that cannot be read (structs, modules, constants and imports): its range starts where the
declaration starts, with its keyword. It ends behind the character that closes the declaration if the declaration is the first
thing in the text; in general the end is too small by the number of bytes before the declaration. If there is no such
character then the range is empty.

Missing: the range is that of the declaration at other places too (`C61_refuted`), and of enums and aliases
(`C61_empty`). -/
theorem C61_range_partial (std : Std) (text : Text) (e : DefinitionError) (h : parseSchema std text = .error (.definition e))
    (w : String) (place : At) (hd : declared e = some (w, place)) (chars : List Char) (hc : closers w = some chars) :
    ∃ u v, text = u ++ v ∧ Opens w v ∧ (rangeOf text place).1 = bytes u ∧
      ((∃ part, UpTo chars v part ∧ (rangeOf text place).2 = bytes part) ∨
       ((∀ c ∈ chars, c ∉ v) ∧ (rangeOf text place).2 = bytes u)) := by
  obtain ⟨s, r, h1, h2⟩ := schema_place std h
  obtain ⟨v, h3, h4, h5⟩ := definition_place std h2 w place hd
  obtain ⟨u, rfl⟩ := h3.trans h1
  rw [placeFor, hc] at h5
  subst h5
  have hsize : ∀ c ∈ chars, c.utf8Size = 1 := by
    rw [closers.eq_def] at hc
    split at hc <;> first | (cases hc; decide) | cases hc
  refine ⟨u, v, rfl, h4, ?_⟩
  rcases fromUntil_range chars u v hsize with ⟨part, h6, h7⟩ | ⟨h6, h7⟩
  · rw [h7]; exact ⟨rfl, .inl ⟨part, h6, rfl⟩⟩
  · rw [h7]; exact ⟨rfl, .inr ⟨h6, rfl⟩⟩

/-- Enums and aliases have an empty range, where the parser stopped. -/
theorem C61_empty (std : Std) (text : Text) (e : DefinitionError) (h : parseSchema std text = .error (.definition e))
    (w : String) (place : At) (hd : declared e = some (w, place)) (hc : closers w = none) :
    (w = "enum" ∨ w = "type") ∧ (rangeOf text place).1 = (rangeOf text place).2 := by
  obtain ⟨s, r, h1, h2⟩ := schema_place std h
  obtain ⟨v, h3, h4, h5⟩ := definition_place std h2 w place hd
  rw [placeFor, hc] at h5
  subst h5
  refine ⟨?_, rfl⟩
  cases e with
  | enum | alias => cases hd; simp
  | module | struct | const | «import» => cases hd; simp [closers] at hc
  | parser | comment | «attribute» => cases hd

/-- The third line is wrong; the range of its declaration is from byte 26 to byte 10. -/
def C61_text : Text := "struct A(u8)\nstruct B(u8)\nstruct c{}\n".toList

theorem C61_example : (match parseSchema C39_std C61_text with
    | .error (.definition (.struct place _)) => some (rangeOf C61_text place)
    | _ => none) = some (26, 10) := by decide +kernel

/-- It does not contain the declaration. -/
theorem C61_refuted : ¬ ∀ (std : Std) (text : Text) (place : At) (c : StructCause),
    parseSchema std text = .error (.definition (.struct place c)) →
    ∃ u v part, text = u ++ v ∧ Opens "struct" v ∧ UpTo ['}', '\n'] v part ∧
      rangeOf text place = (bytes u, bytes u + bytes part) := by
  intro h
  have h1 := C61_example
  cases hp : parseSchema C39_std C61_text with
  | ok s => rw [hp] at h1; cases h1
  | error e =>
    rw [hp] at h1
    cases e with
    | parser => cases h1
    | comment => cases h1
    | definition e =>
      cases e with
      | struct place c =>
        obtain ⟨u, v, part, _, _, _, h2⟩ := h _ _ place c hp
        have h3 : rangeOf C61_text place = (26, 10) := Option.some.inj h1
        rw [h2] at h3
        have h4 := congrArg Prod.fst h3
        have h5 := congrArg Prod.snd h3
        simp only at h4 h5
        omega
      | _ => cases h1

end Mabo.Props
