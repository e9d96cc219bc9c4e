import Verif.Lsp.HoverMain
import Verif.Props.Outline
import Verif.Props.Validate
/-! Properties of the language server: C50 (hover). -/
namespace Mabo.Props
open Mabo.Lsp Mabo.Spec Mabo.Spec.Doc
open Mabo.Ast (Schema)

variable {Uri : Type} [DecidableEq Uri]

/-! ## C50: hover -/

/-- The response to a hover request with the cursor behind `a`: some part with something to show is under the cursor, and
its text and range are the response; or none is, and the response is empty. -/
def HoverAt (enc : Encoding) (config : HoverConfig) (checked : Bool) (places : List Place) (parts : List Segment) (a : Text)
    (res : Resp (Option (String × (Position × Position)))) : Prop :=
  (∃ x ∈ places.zip parts, ∃ comment note content, x.1.Under a ∧ x.2.hover = some (comment, note) ∧
    HoverText config checked comment note content ∧ res = .ok (some (content, x.1.range enc))) ∨
  ((∀ x ∈ places.zip parts, x.2.hover ≠ none → ¬ x.1.Under a) ∧ res = .ok none)

/-- Every valid schema file `a ++ b`, every position encoding, every configuration, and the cursor behind `a`: the parts of
the file have places in the text, in order and without overlap; if the cursor is on the declared name of a module, struct,
enum, variant, field, alias or constant, the response is its comment followed by the next free id or the overview of the
size (`HoverText`), with the range of the name, and otherwise it is empty. -/
theorem C50_hover (enc : Encoding) (offset : Text → Position → Option Nat) (ho : OffsetContract enc offset)
    (position : Text → Nat → Option Position) (hp : PositionContract enc position)
    (std : Parse.Std) (checked : Bool) (config : HoverConfig) (fs : Files Uri) (u : Uri) (a b : Text) (schema : Schema)
    (hf : Stored fs u (a ++ b)) (h : Parse.parseSchema std (a ++ b) = some schema)
    (hv : Compiler.validateSchema checked schema = .ok) :
    ∃ places, Placed [] (a ++ b) places (definitionsParts std schema.definitions) ∧
      HoverAt enc config checked places (definitionsParts std schema.definitions) a
        (hover std checked config offset position fs u (posOf enc a)) := by
  obtain ⟨s, h1, rfl, h3⟩ := compile_ok h hv
  obtain ⟨hl, hs⟩ := lies_schema h1
  have hin := hl.inText (a ++ b) [] rfl
  obtain ⟨t, h4, _, h5⟩ := C31_validated_simplifies checked _ hv
  have hn := Simplify.okDefs_iff.2 ((C25_validate_exact checked s.erase).1 hv).2
  have hsh := shows_definitions (config := config) (checked := checked) (source := a ++ b) (pos := bytes a) (std := std)
    (ds := s.definitions) h5 hn
  refine ⟨(definitionsMarks std s.definitions).map fun m => placeOf (a ++ b) m.1, hs ▸ hl.placed (a ++ b) [] rfl, ?_⟩
  have hres : hover std checked config offset position fs u (posOf enc a) =
      (hoverDefinitions config checked (a ++ b) (bytes a) s.definitions t.definitions).bind fun
        | none => .ok none
        | some (text, span) => (getRange (position (a ++ b)) (a ++ b) span).bind fun range => .ok (some (text, range)) := by
    simp only [hover, show Lsp.get fs u = some (createFile (a ++ b)) from hf, createFile, h3, h4, hoverSchema, ho a b]
    rfl
  rw [hres, ← hs, HoverAt, List.zip_map']
  rcases hsh with ⟨x, hx, hc, text, ht, e⟩ | ⟨hc, e⟩
  · left
    obtain ⟨m, hm, hmx⟩ := List.mem_filterMap.1 hx
    cases hh : m.2.hover with
    | none => rw [hh] at hmx; cases hmx
    | some c =>
      rw [hh] at hmx
      cases hmx
      refine ⟨(placeOf (a ++ b) m.1, m.2), List.mem_map.2 ⟨m, hm, rfl⟩, c.1, c.2, text, (under_iff (hin m hm) rfl).1 hc, hh, ht, ?_⟩
      rw [e]
      simp only [Resp.bind, (hin m hm).range hp]
  · right
    refine ⟨fun x hx hne hu => ?_, by rw [e]; rfl⟩
    obtain ⟨m, hm, rfl⟩ := List.mem_map.1 hx
    cases hh : m.2.hover with
    | none => exact hne hh
    | some c =>
      have h6 := hc (m.1, c) (List.mem_filterMap.2 ⟨m, hm, by rw [hh]; rfl⟩)
      have h7 := (under_iff (hin m hm) rfl).2 hu
      rw [h7] at h6
      cases h6

/-- Files that are not known, not parsed or not valid have an empty response. -/
theorem C50_no_hover (std : Parse.Std) (checked : Bool) (config : HoverConfig) (offset : Text → Position → Option Nat)
    (position : Text → Nat → Option Position) (fs : Files Uri) (u : Uri) (p : Position)
    (h : Lsp.get fs u = none ∨ ∃ text, Stored fs u text ∧ (Parse.parseSchema std text = none ∨
      ∃ schema e, Parse.parseSchema std text = some schema ∧ Compiler.validateSchema checked schema = .err e)) :
    hover std checked config offset position fs u p = .ok none := by
  rcases h with h | ⟨text, hf, h⟩
  · simp only [hover, h]
  · simp only [hover, show Lsp.get fs u = some (createFile text) from hf, createFile, compile_none h]

/-- The server is never stopped by the request, wherever in the text the cursor is: the only panic is one of the validator
(see C34). -/
theorem C50_no_panic (enc : Encoding) (offset : Text → Position → Option Nat) (ho : OffsetContract enc offset)
    (position : Text → Nat → Option Position) (hp : PositionContract enc position)
    (std : Parse.Std) (checked : Bool) (config : HoverConfig) (fs : Files Uri) (u : Uri) (a b : Text) (hf : Stored fs u (a ++ b))
    (hv : ∀ schema, Parse.parseSchema std (a ++ b) = some schema → Compiler.validateSchema checked schema ≠ .panic) :
    ∃ r, hover std checked config offset position fs u (posOf enc a) = .ok r := by
  cases h : Parse.parseSchema std (a ++ b) with
  | none => exact ⟨none, C50_no_hover _ _ _ _ _ _ _ _ (.inr ⟨_, hf, .inl h⟩)⟩
  | some schema =>
    cases hc : Compiler.validateSchema checked schema with
    | ok =>
      obtain ⟨_, _, ⟨_, _, _, _, _, _, _, _, hd⟩ | ⟨_, hd⟩⟩ :=
        C50_hover enc offset ho position hp std checked config fs u a b schema hf h hc
      · exact ⟨_, hd⟩
      · exact ⟨_, hd⟩
    | err e => exact ⟨none, C50_no_hover _ _ _ _ _ _ _ _ (.inr ⟨_, hf, .inr ⟨schema, e, h, hc⟩⟩)⟩
    | panic => exact absurd hc (hv schema h)

/-- In a session: after every (orderly, see C46) history, the response is about the text that the client shows. -/
theorem C50_in_session (enc : Encoding) (offset : Text → Position → Option Nat) (ho : OffsetContract enc offset)
    (position : Text → Nat → Option Position) (hp : PositionContract enc position) (std : Parse.Std) (checked : Bool)
    (config : HoverConfig) (ns : List (Notification Uri)) (d : Docs Uri) (hh : History enc (Orderly enc) noDocs ns d) :
    ∃ fs, run offset [] ns = .ok fs ∧ ∀ u a b schema, d u = some (a ++ b) → Parse.parseSchema std (a ++ b) = some schema →
      Compiler.validateSchema checked schema = .ok →
      ∃ places, Placed [] (a ++ b) places (definitionsParts std schema.definitions) ∧
        HoverAt enc config checked places (definitionsParts std schema.definitions) a
          (hover std checked config offset position fs u (posOf enc a)) := by
  obtain ⟨fs, h1, h2⟩ := run_synced ho hh (fs := []) ⟨fun _ _ h => (nomatch h), fun _ _ h => (nomatch h)⟩
  exact ⟨fs, h1, fun u a b schema hu h hv =>
    C50_hover enc offset ho position hp std checked config fs u a b schema (h2.2 u _ hu) h hv⟩

/-! ### What the specification implies -/

theorem placed_after {b r : Text} : ∀ {ps : List Place} {gs : List Segment}, Placed b r ps gs →
    ∀ p ∈ ps, b.length ≤ p.before.length
  | [], [], _ => fun _ h => (nomatch h)
  | p :: ps, g :: gs, h => by
    obtain ⟨gap, r', e, e2, _, h4, h5⟩ := h
    intro q hq
    rcases List.mem_cons.1 hq with rfl | hq
    · rw [e2, List.length_append]; omega
    · have := placed_after h5 q hq
      simp only [List.length_append] at this
      omega
  | [], _ :: _, h => h.elim
  | _ :: _, [], h => h.elim

/-- At most one part is under the cursor. -/
theorem placed_unique {b r a : Text} : ∀ {ps : List Place} {gs : List Segment}, Placed b r ps gs →
    ∀ x ∈ ps.zip gs, ∀ y ∈ ps.zip gs, x.1.Under a → y.1.Under a → x = y
  | [], [], _ => fun _ h => (nomatch h)
  | p :: ps, g :: gs, h => by
    obtain ⟨gap, r', e, e2, _, h4, h5⟩ := h
    have key : ∀ y ∈ ps.zip gs, p.Under a → ¬ y.1.Under a := fun y hy hu hv => by
      have := placed_after h5 y.1 (List.of_mem_zip hy).1
      rw [List.length_append, ← e2] at this
      have := hu.2; have := hv.1
      omega
    intro x hx y hy hu hv
    rw [List.zip_cons_cons] at hx hy
    rcases List.mem_cons.1 hx with rfl | hx
    · rcases List.mem_cons.1 hy with rfl | hy
      · rfl
      · exact absurd hv (key y hy hu)
    · rcases List.mem_cons.1 hy with rfl | hy
      · exact absurd hu (key x hx hv)
      · exact placed_unique h5 x hx y hy hu hv
  | [], _ :: _, h => h.elim
  | _ :: _, [], h => h.elim

mutual
/-- References can be resolved: `SizeText` says something about every type. -/
theorem resolves_exists : ∀ t : Ast.DataType, ∃ u, Resolves t u
  | .prim p => ⟨_, .prim p⟩
  | .vec t => (resolves_exists t).elim fun _ h => ⟨_, .vec h⟩
  | .hashMap k v => (resolves_exists k).elim fun _ h => (resolves_exists v).elim fun _ h' => ⟨_, .hashMap h h'⟩
  | .hashSet t => (resolves_exists t).elim fun _ h => ⟨_, .hashSet h⟩
  | .option t => (resolves_exists t).elim fun _ h => ⟨_, .option h⟩
  | .nonZero t => (resolves_exists t).elim fun _ h => ⟨_, .nonZero h⟩
  | .tuple ts _ => (resolvesAll_exists ts).elim fun _ h => ⟨_, .tuple h⟩
  | .array t _ => (resolves_exists t).elim fun _ h => ⟨_, .array h⟩
  | .external _ _ _ _ => ⟨.param 0, .param⟩
theorem resolvesAll_exists : ∀ ts : List Ast.DataType, ∃ us, ResolvesAll ts us
  | [] => ⟨_, .nil⟩
  | t :: ts => (resolves_exists t).elim fun _ h => (resolvesAll_exists ts).elim fun _ h' => ⟨_, .cons h h'⟩
end

/-- A file. -/
def C50_text : Text := "/// 😀\nstruct A { a: [u16; 3] @4 }\n".toList

theorem C50_valid : (Parse.parseSchema C39_std C50_text).any
    (fun schema => decide (Compiler.validateSchema true schema = .ok)) = true := by decide +kernel

/-- Four positions: on the name of the struct, behind it, on the name of the field, at the end. -/
def C50_cursors : List Nat := [13, 14, 17, 35]
/-- The range of what is shown there, in UTF-16. -/
def C50_answers : List (Option (Position × Position)) := [some (⟨1, 7⟩, ⟨1, 8⟩), none, some (⟨1, 11⟩, ⟨1, 12⟩), none]

theorem C50_shown : ((Spanned.parseSchema C39_std C50_text).bind fun s => (Parse.parseSchema C39_std C50_text).bind fun s' =>
    (Simplify.simplifySchema true s').map fun t => C50_cursors.map fun n =>
      (hoverSchema {} true (searchOffset .utf16 C50_text) (searchPosition .utf16 C50_text) C50_text s t
        (posOf .utf16 (C50_text.take n))).bind fun r => .ok (r.map (·.2))) = some (C50_answers.map .ok) := by decide +kernel

/-- `C50_hover` applies to the file, for every position of the cursor, and these are the responses for four. -/
theorem C50_example : ∃ schema, Parse.parseSchema C39_std C50_text = some schema ∧
    Compiler.validateSchema true schema = .ok ∧
    (C50_cursors.map fun n => (hover C39_std true {} (searchOffset .utf16) (searchPosition .utf16)
      [(0, createFile C50_text)] 0 (posOf .utf16 (C50_text.take n))).bind fun r => .ok (r.map (·.2))) = C50_answers.map .ok := by
  have hv := C50_valid
  have hl := C50_shown
  cases hs : Parse.parseSchema C39_std C50_text with
  | none => rw [hs] at hv; cases hv
  | some schema =>
    rw [hs] at hv
    have hv : Compiler.validateSchema true schema = .ok := of_decide_eq_true hv
    obtain ⟨s, h3, rfl, h5⟩ := compile_ok hs hv
    refine ⟨_, rfl, hv, ?_⟩
    rw [h3, hs] at hl
    obtain ⟨t, ht, _⟩ := C31_validated_simplifies true _ hv
    simp only [Option.bind_some, ht, Option.map_some, Option.some.injEq] at hl
    rw [← hl]
    have hg : Lsp.get [(0, (⟨C50_text, C50_text, C50_text⟩ : File))] 0 = some ⟨C50_text, C50_text, C50_text⟩ := by simp [Lsp.get]
    simp only [hover, createFile, hg, h5, ht]

/-- The texts for such definitions. -/
example : variantsText {} true [" x"] [⟨[], "A", ⟨[], .unit⟩, 4⟩] = .ok " x\n- next ID: `5`\n" := by decide +kernel
example : fieldText {} [" x"] (.array (.prim .u16) 3) =
    " x\n### Wire size\n\n**array** `4..10`\n  - length: **u64** `1`\n  - element: **u16** `1..3`" := by decide +kernel

end Mabo.Props
