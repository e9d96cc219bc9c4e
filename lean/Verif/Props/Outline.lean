import Verif.Lsp.OutlineMain
import Verif.Props.Tokens
/-! Properties of the language server: C49 (document symbols). -/
namespace Mabo.Props
open Mabo.Lsp Mabo.Spec Mabo.Spec.Doc
open Mabo.Ast (Schema)

variable {Uri : Type} [DecidableEq Uri]

/-! ## C49: document symbols -/

/-- Every valid schema file, of any length, in every position encoding: the request succeeds; the response is the tree of
what the file declares (`outlineDefinitions`: kinds, names, nesting); and the parts of the file have places in the text, in
order and without overlap, each holding its text (`Placed`), such that the entries of the response, parents before children,
are exactly those of the parts that declare something, each with the range of its place. -/
theorem C49_document_symbols (enc : Encoding) (position : Text → Nat → Option Position) (hp : PositionContract enc position)
    (std : Parse.Std) (checked : Bool) (fs : Files Uri) (u : Uri) (text : Text) (schema : Schema)
    (hf : Stored fs u text) (h : Parse.parseSchema std text = some schema)
    (hv : Compiler.validateSchema checked schema = .ok) :
    ∃ symbols places, documentSymbol std checked position fs u = .ok (some symbols) ∧
      Placed [] text places (definitionsParts std schema.definitions) ∧
      shapes symbols = outlineDefinitions schema.definitions ∧
      entriesOf symbols = (places.zip (definitionsParts std schema.definitions)).filterMap fun x => entryOf enc x.1 x.2 := by
  obtain ⟨s, h1, rfl, h3⟩ := compile_ok h hv
  obtain ⟨hl, hs⟩ := lies_schema h1
  obtain ⟨ss, h4, h5, h6⟩ := okSyms_definitions (enc := enc) hp (std := std) s.definitions (hl.inText text [] rfl)
  have hpl := hl.placed text [] rfl
  refine ⟨ss, (definitionsMarks std s.definitions).map fun m => placeOf text m.1, ?_, hs ▸ hpl, h5, ?_⟩
  · simp only [documentSymbol, show Lsp.get fs u = some (createFile text) from hf, createFile, h3, h4, Resp.bind]
  · rw [h6, ← hs, entriesAt, List.zip_map', List.filterMap_map]
    rfl

/-- Files that are not known, not parsed or not valid have an empty response. -/
theorem C49_no_symbols (std : Parse.Std) (checked : Bool) (position : Text → Nat → Option Position) (fs : Files Uri) (u : Uri)
    (h : Lsp.get fs u = none ∨ ∃ text, Stored fs u text ∧ (Parse.parseSchema std text = none ∨
      ∃ schema e, Parse.parseSchema std text = some schema ∧ Compiler.validateSchema checked schema = .err e)) :
    documentSymbol std checked position fs u = .ok none := by
  rcases h with h | ⟨text, hf, h⟩
  · simp only [documentSymbol, h]
  · have hc := compile_none h
    simp only [documentSymbol, show Lsp.get fs u = some (createFile text) from hf, createFile, hc]

/-- The server is never stopped by the request: the only panic is one of the validator (see C34). -/
theorem C49_no_panic (enc : Encoding) (position : Text → Nat → Option Position) (hp : PositionContract enc position)
    (std : Parse.Std) (checked : Bool) (fs : Files Uri) (u : Uri) (text : Text) (hf : Stored fs u text)
    (hv : ∀ schema, Parse.parseSchema std text = some schema → Compiler.validateSchema checked schema ≠ .panic) :
    ∃ r, documentSymbol std checked position fs u = .ok r := by
  cases h : Parse.parseSchema std text with
  | none => exact ⟨none, C49_no_symbols _ _ _ _ _ (.inr ⟨text, hf, .inl h⟩)⟩
  | some schema =>
    cases hc : Compiler.validateSchema checked schema with
    | ok => obtain ⟨d, _, hd, _⟩ := C49_document_symbols enc position hp std checked fs u text schema hf h hc; exact ⟨_, hd⟩
    | err e => exact ⟨none, C49_no_symbols _ _ _ _ _ (.inr ⟨text, hf, .inr ⟨schema, e, h, hc⟩⟩)⟩
    | panic => exact absurd hc (hv schema h)

/-- In a session: after every (orderly, see C46) history, the symbols of every open document that is a valid schema are
those of the text that the client shows. -/
theorem C49_in_session (enc : Encoding) (offset : Text → Position → Option Nat) (ho : OffsetContract enc offset)
    (position : Text → Nat → Option Position) (hp : PositionContract enc position) (std : Parse.Std) (checked : Bool)
    (ns : List (Notification Uri)) (d : Docs Uri) (hh : History enc (Orderly enc) noDocs ns d) :
    ∃ fs, run offset [] ns = .ok fs ∧ ∀ u text schema, d u = some text → Parse.parseSchema std text = some schema →
      Compiler.validateSchema checked schema = .ok →
      ∃ symbols places, documentSymbol std checked position fs u = .ok (some symbols) ∧
        Placed [] text places (definitionsParts std schema.definitions) ∧
        shapes symbols = outlineDefinitions schema.definitions ∧
        entriesOf symbols =
          (places.zip (definitionsParts std schema.definitions)).filterMap fun x => entryOf enc x.1 x.2 := by
  obtain ⟨fs, h1, h2⟩ := run_synced ho hh (fs := []) ⟨fun _ _ h => (nomatch h), fun _ _ h => (nomatch h)⟩
  exact ⟨fs, h1, fun u text schema hu h hv => C49_document_symbols enc position hp std checked fs u text schema (h2.2 u text hu) h hv⟩

/-! ### What the specification implies -/

/-- The places hold the texts of the parts, and do not overlap. -/
theorem placed_here {b r : Text} : ∀ {ps : List Place} {gs : List Segment}, Placed b r ps gs →
    ps.length = gs.length ∧ ∀ x ∈ ps.zip gs, x.2.text x.1.here ∧ x.1.before ++ x.1.here <+: b ++ r
  | [], [], _ => ⟨rfl, fun _ h => (nomatch h)⟩
  | p :: ps, g :: gs, h => by
    obtain ⟨gap, r', e, e2, _, h4, h5⟩ := h
    obtain ⟨h6, h7⟩ := placed_here h5
    refine ⟨by simp [h6], fun x hx => ?_⟩
    rcases List.mem_cons.1 (by simpa using hx) with rfl | hx
    · exact ⟨h4, ⟨r', by rw [e2, e]; simp⟩⟩
    · obtain ⟨a, c⟩ := h7 x hx
      refine ⟨a, ?_⟩
      rw [e]; simpa using c
  | [], _ :: _, h => h.elim
  | _ :: _, [], h => h.elim

/-- A file. -/
def C49_text : Text := "mod m { struct A { a: u8 @1 } }\nuse x::y;\nenum E { B(u8 @1) @1 }\n".toList

/-- Its outline. -/
def C49_outline : List Outline :=
  [.node .module "m" [.node .struct "A" [.node .property "a" []]], .node .file "x::y" [],
    .node .enum "E" [.node .enumMember "B" [.node .property "0" []]]]

/-- Ranges in UTF-16. -/
def C49_entries : List Entry :=
  [((.module, "m"), at' 0 4 5), ((.struct, "A"), at' 0 15 16), ((.property, "a"), at' 0 19 20), ((.file, "x::y"), at' 1 4 8),
    ((.enum, "E"), at' 2 5 6), ((.enumMember, "B"), at' 2 9 10), ((.property, "0"), at' 2 11 16)]
where at' (l a b : Nat) := (((⟨l, a⟩, ⟨l, b⟩), (⟨l, a⟩, ⟨l, b⟩)) : (Position × Position) × (Position × Position))

theorem C49_valid : (Parse.parseSchema C39_std C49_text).any
    (fun schema => decide (Compiler.validateSchema true schema = .ok)) = true := by decide +kernel

instance : DecidableEq Entry := inferInstance
instance : DecidableEq (List Entry) := inferInstance
instance : DecidableEq (Resp (List Entry)) := instDecidableEqResp

theorem C49_listed : ((Spanned.parseSchema C39_std C49_text).map fun s =>
    (symbolDefinitions (searchPosition .utf16 C49_text) C49_text s.definitions).bind fun ss => .ok (entriesOf ss)) =
    some (.ok C49_entries) := by decide +kernel

/-- `C49_document_symbols` applies to the file, and this is its response. -/
theorem C49_example : ∃ schema symbols, Parse.parseSchema C39_std C49_text = some schema ∧
    Compiler.validateSchema true schema = .ok ∧
    documentSymbol C39_std true (searchPosition .utf16) [(0, createFile C49_text)] 0 = .ok (some symbols) ∧
    shapes symbols = outlineDefinitions schema.definitions ∧ entriesOf symbols = C49_entries := by
  have hv := C49_valid
  have hl := C49_listed
  cases hs : Parse.parseSchema C39_std C49_text with
  | none => rw [hs] at hv; cases hv
  | some schema =>
    rw [hs] at hv
    have hv : Compiler.validateSchema true schema = .ok := of_decide_eq_true hv
    have hf : Stored [(0, createFile C49_text)] 0 C49_text := by simp [Stored, Lsp.get]
    obtain ⟨ss, _, h1, _, h2, _⟩ := C49_document_symbols .utf16 (searchPosition .utf16) (searchPosition_contract _) C39_std true
      _ 0 C49_text schema hf hs hv
    obtain ⟨s, h3, rfl, h5⟩ := compile_ok hs hv
    refine ⟨_, ss, rfl, hv, h1, h2, ?_⟩
    rw [h3] at hl
    have hg : Lsp.get [(0, (⟨C49_text, C49_text, C49_text⟩ : File))] 0 = some ⟨C49_text, C49_text, C49_text⟩ := hf
    simp only [documentSymbol, createFile, hg, h5] at h1
    simp only [Option.map_some, Option.some.injEq] at hl
    cases hx : symbolDefinitions (searchPosition .utf16 C49_text) C49_text s.definitions with
    | error => rw [hx] at h1; cases h1
    | panic => rw [hx] at h1; cases h1
    | ok x =>
      rw [hx] at h1 hl
      simp only [Resp.bind, Resp.ok.injEq, Option.some.injEq] at h1 hl
      rw [← h1]; exact hl

end Mabo.Props
