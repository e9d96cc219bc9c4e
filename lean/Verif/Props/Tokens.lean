import Verif.Lsp.TokensMain
import Verif.Lsp.SyncLemmas
import Verif.Props.Lsp
/-! Properties of the language server: C39 (semantic tokens). -/
namespace Mabo.Props
open Mabo.Lsp Mabo.Spec
open Mabo.Ast (Schema)

variable {Uri : Type} [DecidableEq Uri]

/-! ## C39: semantic tokens -/

/-- A file as the language server stores it. -/
def Stored (fs : Files Uri) (u : Uri) (text : Text) : Prop := Lsp.get fs u = some (createFile text)

theorem compile_ok {std : Parse.Std} {checked : Bool} {text : Text} {schema : Schema}
    (h : Parse.parseSchema std text = some schema) (hv : Compiler.validateSchema checked schema = .ok) :
    ∃ s, Spanned.parseSchema std text = some s ∧ s.erase = schema ∧ compile std checked text = .ok (some s) := by
  have he := Spanned.erase_parseSchema std text
  rw [h] at he
  cases hs : Spanned.parseSchema std text with
  | none => rw [hs] at he; cases he
  | some s =>
    rw [hs] at he
    have e : s.erase = schema := by cases he; rfl
    exact ⟨s, rfl, e, by simp only [compile, hs, e, hv]⟩

/-- Every valid schema file, of any length, in every position encoding: the request succeeds and, read as the protocol
says, the response holds exactly the tokens of the schema (its comments, keywords, names, types, ids, literals and
punctuation, see `definitionsItems`), in the order of the text, without overlap, each with its type and its modifiers, and
where each one points to is its text. -/
theorem C39_semantic_tokens (enc : Encoding) (position : Text → Nat → Option Position) (hp : PositionContract enc position)
    (std : Parse.Std) (checked : Bool) (fs : Files Uri) (u : Uri) (text : Text) (schema : Schema)
    (hf : Stored fs u text) (h : Parse.parseSchema std text = some schema)
    (hv : Compiler.validateSchema checked schema = .ok) :
    ∃ data, semanticTokens std checked position fs u = .ok (some data) ∧
      Highlighted enc [] text (decode tokenTypes tokenModifiers ⟨0, 0⟩ data) (definitionsItems std schema.definitions) := by
  obtain ⟨s, h1, h2, h3⟩ := compile_ok h hv
  obtain ⟨data, h4, h5⟩ := visitSchema_highlighted hp h1
  refine ⟨data, ?_, h2 ▸ h5⟩
  simp only [semanticTokens, show Lsp.get fs u = some (createFile text) from hf, createFile, h3, h4, Resp.bind]

/-- Files that are not parsed or not valid have no schema. -/
theorem compile_none {std : Parse.Std} {checked : Bool} {text : Text} (h : Parse.parseSchema std text = none ∨
      ∃ schema e, Parse.parseSchema std text = some schema ∧ Compiler.validateSchema checked schema = .err e) :
    compile std checked text = .ok none := by
  have he := Spanned.erase_parseSchema std text
  rcases h with h | ⟨schema, e, h, hv⟩
  · rw [h] at he
    cases hs : Spanned.parseSchema std text with
    | none => simp only [compile, hs]
    | some s => rw [hs] at he; cases he
  · rw [h] at he
    cases hs : Spanned.parseSchema std text with
    | none => rw [hs] at he; cases he
    | some s =>
      rw [hs] at he
      have e : s.erase = schema := by cases he; rfl
      simp only [compile, hs, e, hv]

/-- Files that are not known, not parsed or not valid have an empty response. -/
theorem C39_no_tokens (std : Parse.Std) (checked : Bool) (position : Text → Nat → Option Position) (fs : Files Uri) (u : Uri)
    (h : Lsp.get fs u = none ∨ ∃ text, Stored fs u text ∧ (Parse.parseSchema std text = none ∨
      ∃ schema e, Parse.parseSchema std text = some schema ∧ Compiler.validateSchema checked schema = .err e)) :
    semanticTokens std checked position fs u = .ok none := by
  rcases h with h | ⟨text, hf, h⟩
  · simp only [semanticTokens, h]
  · simp only [semanticTokens, show Lsp.get fs u = some (createFile text) from hf, createFile, compile_none h]

/-- The server is never stopped by the request: the only panic is one of the validator (see C34). -/
theorem C39_no_panic (enc : Encoding) (position : Text → Nat → Option Position) (hp : PositionContract enc position)
    (std : Parse.Std) (checked : Bool) (fs : Files Uri) (u : Uri) (text : Text) (hf : Stored fs u text)
    (hv : ∀ schema, Parse.parseSchema std text = some schema → Compiler.validateSchema checked schema ≠ .panic) :
    ∃ r, semanticTokens std checked position fs u = .ok r := by
  cases h : Parse.parseSchema std text with
  | none => exact ⟨none, C39_no_tokens _ _ _ _ _ (.inr ⟨text, hf, .inl h⟩)⟩
  | some schema =>
    cases hc : Compiler.validateSchema checked schema with
    | ok => obtain ⟨d, hd, _⟩ := C39_semantic_tokens enc position hp std checked fs u text schema hf h hc; exact ⟨_, hd⟩
    | err e => exact ⟨none, C39_no_tokens _ _ _ _ _ (.inr ⟨text, hf, .inr ⟨schema, e, h, hc⟩⟩)⟩
    | panic => exact absurd hc (hv schema h)

/-- In a session: after every (orderly, see C46) history, the tokens of every open document that is a valid schema are
those of the text that the client shows. -/
theorem C39_in_session (enc : Encoding) (offset : Text → Position → Option Nat) (ho : OffsetContract enc offset)
    (position : Text → Nat → Option Position) (hp : PositionContract enc position) (std : Parse.Std) (checked : Bool)
    (ns : List (Notification Uri)) (d : Docs Uri) (hh : History enc (Orderly enc) noDocs ns d) :
    ∃ fs, run offset [] ns = .ok fs ∧ ∀ u text schema, d u = some text → Parse.parseSchema std text = some schema →
      Compiler.validateSchema checked schema = .ok → ∃ data, semanticTokens std checked position fs u = .ok (some data) ∧
        Highlighted enc [] text (decode tokenTypes tokenModifiers ⟨0, 0⟩ data) (definitionsItems std schema.definitions) := by
  obtain ⟨fs, h1, h2⟩ := run_synced ho hh (fs := []) ⟨fun _ _ h => (nomatch h), fun _ _ h => (nomatch h)⟩
  exact ⟨fs, h1, fun u text schema hu h hv => C39_semantic_tokens enc position hp std checked fs u text schema (h2.2 u text hu) h hv⟩

/-! ### What the specification implies -/

/-- Number of tokens. -/
theorem highlighted_length {enc : Encoding} : ∀ {b r : Text} {ts : List AbsToken} {is : List Item},
    Highlighted enc b r ts is → ts.length = is.length
  | _, _, [], [], _ => rfl
  | _, _, _ :: _, _ :: _, h => by
    obtain ⟨_, _, _, _, _, _, _, _, h⟩ := h
    simp [highlighted_length h]
  | _, _, [], _ :: _, h => h.elim
  | _, _, _ :: _, [], h => h.elim

/-- The types and modifiers, in order. -/
theorem highlighted_types {enc : Encoding} : ∀ {b r : Text} {ts : List AbsToken} {is : List Item},
    Highlighted enc b r ts is → ts.map (fun t => (t.type, t.modifiers)) = is.map fun i => (some i.type, i.modifiers)
  | _, _, [], [], _ => rfl
  | _, _, _ :: _, _ :: _, h => by
    obtain ⟨_, _, _, _, _, _, _, rfl, h⟩ := h
    simp [highlighted_types h]
  | _, _, [], _ :: _, h => h.elim
  | _, _, _ :: _, [], h => h.elim

/-- A position lookup by search. -/
def searchPosition (enc : Encoding) (t : Text) (n : Nat) : Option Position :=
  ((splits t).find? fun s => decide (bytes s.1 = n)).map fun s => posOf enc s.1

theorem bytes_append (a b : Text) : bytes (a ++ b) = bytes a + bytes b := by simp [bytes]

theorem bytes_split {a b x y : Text} (e : a ++ b = x ++ y) (h : bytes a = bytes x) : a = x := by
  induction a generalizing x with
  | nil =>
    cases x with
    | nil => rfl
    | cons c x =>
      have := Char.utf8Size_pos c
      simp [bytes] at h; omega
  | cons c a ih =>
    cases x with
    | nil =>
      have := Char.utf8Size_pos c
      simp [bytes] at h; omega
    | cons d x =>
      simp only [List.cons_append, List.cons.injEq] at e
      obtain ⟨rfl, e⟩ := e
      rw [ih e (by simpa [bytes] using h)]

/-- The assumption about the index can be met. -/
theorem searchPosition_contract (enc : Encoding) : PositionContract enc (searchPosition enc) := by
  intro a b
  unfold searchPosition
  cases h : (splits (a ++ b)).find? fun s => decide (bytes s.1 = bytes a) with
  | none =>
    have := List.find?_eq_none.1 h (a, b) ((mem_splits _ a b).2 rfl)
    simp at this
  | some s =>
    have h1 := List.mem_of_find?_eq_some h
    have h2 := List.find?_some h
    simp only [decide_eq_true_eq] at h2
    obtain ⟨x, y⟩ := s
    obtain rfl := bytes_split ((mem_splits _ x y).1 h1) h2
    rfl

/-- A file. -/
def C39_text : Text := "/// 😀\nstruct A(u8 @1)\n".toList
/-- Not used: the file has no floats. -/
def C39_std : Parse.Std := ⟨fun _ => 0, fun _ => [], fun _ => false⟩

/-- The calls of the visitor for it: characters from where to where. -/
def C39_calls : List Call :=
  [(0, 5, "comment", ["documentation"]), (6, 12, "keyword", []), (13, 14, "struct", ["declaration"]),
    (14, 15, "parenthesis", []), (15, 17, "builtinType", []), (18, 20, "identifier", []),
    (20, 21, "parenthesis", [])].map fun c => ⟨⟨C39_text.drop c.1, C39_text.drop c.2.1⟩, c.2.2.1, c.2.2.2⟩

theorem C39_visited : ((Spanned.parseSchema C39_std C39_text).map fun s => visitDefinitions s.definitions) =
    some C39_calls := by decide +kernel

/-- What the client reads: the comment with its length in UTF-16, the keyword on the next line, and so on. -/
def C39_tokens : List AbsToken :=
  [⟨0, 0, 6, some "comment", ["documentation"]⟩, ⟨1, 0, 6, some "keyword", []⟩,
    ⟨1, 7, 1, some "struct", ["declaration"]⟩, ⟨1, 8, 1, some "parenthesis", []⟩, ⟨1, 9, 2, some "builtinType", []⟩,
    ⟨1, 12, 2, some "identifier", []⟩, ⟨1, 14, 1, some "parenthesis", []⟩]

theorem C39_decoded : ((addSpans (searchPosition .utf16 C39_text) C39_text .new C39_calls).bind fun v =>
    .ok (decode tokenTypes tokenModifiers ⟨0, 0⟩ v.tokens)) = .ok C39_tokens := by decide +kernel

theorem C39_valid : (Parse.parseSchema C39_std C39_text).any
    (fun schema => decide (Compiler.validateSchema true schema = .ok)) = true := by decide +kernel

/-- From the calls of the visitor to the response. -/
theorem tokens_of_calls {std : Parse.Std} {checked : Bool} {position : Text → Nat → Option Position} {text : Text}
    {calls : List Call} {toks : List AbsToken}
    (hv : (Parse.parseSchema std text).any (fun schema => decide (Compiler.validateSchema checked schema = .ok)) = true)
    (hc : ((Spanned.parseSchema std text).map fun s => visitDefinitions s.definitions) = some calls)
    (hd : ((addSpans (position text) text .new calls).bind fun v =>
      .ok (decode tokenTypes tokenModifiers ⟨0, 0⟩ v.tokens)) = .ok toks) :
    ∃ schema data, Parse.parseSchema std text = some schema ∧ Compiler.validateSchema checked schema = .ok ∧
      semanticTokens std checked position [(0, createFile text)] 0 = .ok (some data) ∧
      decode tokenTypes tokenModifiers ⟨0, 0⟩ data = toks := by
  cases hs : Parse.parseSchema std text with
  | none => rw [hs] at hv; cases hv
  | some schema =>
    rw [hs] at hv
    have hv : Compiler.validateSchema checked schema = .ok := of_decide_eq_true hv
    obtain ⟨s, h1, h2, h3⟩ := compile_ok hs hv
    rw [h1] at hc
    have hc : visitDefinitions s.definitions = calls := Option.some.inj hc
    cases ha : addSpans (position text) text .new calls with
    | error => rw [ha] at hd; cases hd
    | panic => rw [ha] at hd; cases hd
    | ok v =>
      rw [ha] at hd
      refine ⟨schema, v.tokens, rfl, hv, ?_, by simpa only [Resp.bind, Resp.ok.injEq] using hd⟩
      have hg : Lsp.get [(0, (⟨text, text, text⟩ : File))] 0 = some ⟨text, text, text⟩ := by simp [Lsp.get]
      simp only [semanticTokens, createFile, hg, h3, visitSchema, hc, ha, Resp.bind]

/-- `C39_semantic_tokens` applies to the file, and this is its response. -/
theorem C39_example : ∃ schema data, Parse.parseSchema C39_std C39_text = some schema ∧
    Compiler.validateSchema true schema = .ok ∧
    semanticTokens C39_std true (searchPosition .utf16) [(0, createFile C39_text)] 0 = .ok (some data) ∧
    decode tokenTypes tokenModifiers ⟨0, 0⟩ data = C39_tokens :=
  tokens_of_calls C39_valid C39_visited C39_decoded

end Mabo.Props
