import Verif.Lsp.TokensDefs
import Verif.Lsp.SyncLemmas
/-! From the calls of the visitor to what the client decodes. -/
namespace Mabo.Lsp
open Mabo.Spanned Mabo.Spec

theorem bytes_eq (t : Text) : (t.map Char.utf8Size).sum = bytes t := by
  induction t with
  | nil => rfl
  | cons c t ih => rw [bytes_cons, ← ih]; simp

theorem offset_append (a b : Text) : Spanned.offset (a ++ b) b = bytes a := by
  unfold Spanned.offset
  rw [bytes_eq, bytes_eq, bytes_append]; omega

theorem posOf_add (enc : Encoding) {a v : Text} (h : '\n' ∉ v) :
    posOf enc (a ++ v) = ⟨(posOf enc a).line, (posOf enc a).character + (v.map (width enc)).sum⟩ := by
  simp only [posOf, lastLine_append h, List.count_append, List.map_append, List.sum_append, List.count_eq_zero.2 h, Nat.add_zero]

theorem posOf_line_le (enc : Encoding) (a b : Text) : (posOf enc a).line ≤ (posOf enc (a ++ b)).line := by
  simp only [posOf, List.count_append]; omega

theorem posOf_char_le (enc : Encoding) (a b : Text) (h : (posOf enc a).line = (posOf enc (a ++ b)).line) :
    (posOf enc a).character ≤ (posOf enc (a ++ b)).character := by
  have hb : '\n' ∉ b := by
    rw [← List.count_eq_zero]
    simp only [posOf, List.count_append] at h; omega
  rw [posOf_add enc hb]; simp

theorem tokenTypePos_ok : ∀ {ty : String}, ty ∈ tokenTypes → ∃ i, tokenTypePos ty = .ok i ∧ tokenTypes[i]? = some ty := by
  have : ∀ ty ∈ tokenTypes, ∃ i, i < 25 ∧ tokenTypePos ty = .ok i ∧ tokenTypes[i]? = some ty := by decide
  intro ty h
  obtain ⟨i, _, h⟩ := this ty h
  exact ⟨i, h⟩

theorem modifiers_ok : ∀ ms ∈ [[], ["declaration"], ["documentation"], ["declaration", "static", "constant"]],
    (tokenModifiers.zipIdx.filter fun m => (tokenModifierBitset ms).testBit m.2).map (·.1) = ms := by decide

theorem addSpans_cover {enc : Encoding} {position : Text → Nat → Option Position} (hp : PositionContract enc position)
    {s r : Text} {cs : List Call} {is : List Item} (h : Cover s r cs is) : ∀ (p0 x : Text) (toks : List SemanticToken),
    ∃ v ts, addSpans (position (p0 ++ x ++ s)) (p0 ++ x ++ s) ⟨toks, posOf enc p0⟩ cs = .ok v ∧ v.tokens = toks ++ ts ∧
      Highlighted enc (p0 ++ x) s (decode tokenTypes tokenModifiers (posOf enc p0) ts) is := by
  induction h with
  | nil h => intro p0 x toks; exact ⟨_, [], rfl, by simp, trivial⟩
  | @cons s r v c i cs is h1 h2 h3 h4 h5 h6 h7 hg _ ih =>
    intro p0 x toks
    obtain ⟨gap, rfl⟩ := h1
    obtain ⟨ty, t1, t2⟩ := tokenTypePos_ok hg.1
    have hm := modifiers_ok _ hg.2
    -- the positions of both ends
    have e1 : Spanned.offset (p0 ++ x ++ (gap ++ (v ++ c.span.stop))) c.span.start = bytes (p0 ++ (x ++ gap)) := by
      have : p0 ++ x ++ (gap ++ (v ++ c.span.stop)) = (p0 ++ (x ++ gap)) ++ c.span.start := by rw [h2]; simp
      rw [this, offset_append]
    have e2 : Spanned.offset (p0 ++ x ++ (gap ++ (v ++ c.span.stop))) c.span.stop = bytes (p0 ++ (x ++ gap) ++ v) := by
      have : p0 ++ x ++ (gap ++ (v ++ c.span.stop)) = (p0 ++ (x ++ gap) ++ v) ++ c.span.stop := by simp
      rw [this, offset_append]
    have r1 : position (p0 ++ x ++ (gap ++ (v ++ c.span.stop))) (bytes (p0 ++ (x ++ gap))) = some (posOf enc (p0 ++ (x ++ gap))) := by
      have : p0 ++ x ++ (gap ++ (v ++ c.span.stop)) = (p0 ++ (x ++ gap)) ++ (v ++ c.span.stop) := by simp
      rw [this]; exact hp _ _
    have r2 : position (p0 ++ x ++ (gap ++ (v ++ c.span.stop))) (bytes (p0 ++ (x ++ gap) ++ v)) =
        some (posOf enc (p0 ++ (x ++ gap) ++ v)) := by
      have : p0 ++ x ++ (gap ++ (v ++ c.span.stop)) = (p0 ++ (x ++ gap) ++ v) ++ c.span.stop := by simp
      rw [this]; exact hp _ _
    have hrange : getRange (position (p0 ++ x ++ (gap ++ (v ++ c.span.stop)))) (p0 ++ x ++ (gap ++ (v ++ c.span.stop))) c.span =
        .ok (posOf enc (p0 ++ (x ++ gap)), posOf enc (p0 ++ (x ++ gap) ++ v)) := by
      simp only [getRange, e1, e2, r1, r2]
    have hadd := posOf_add enc (a := p0 ++ (x ++ gap)) h4
    have l1 := posOf_line_le enc p0 (x ++ gap)
    have l2 := posOf_char_le enc p0 (x ++ gap)
    generalize hP : posOf enc (p0 ++ (x ++ gap)) = P at *
    generalize hD : posOf enc p0 = D at *
    have hlsl : ∃ st, lsl D P (posOf enc (p0 ++ (x ++ gap) ++ v)) = .ok (P.line - D.line, st, (v.map (width enc)).sum) ∧
        (if P.line - D.line = 0 then D.character + st else st) = P.character := by
      rw [hadd]
      by_cases hl : D.line = P.line
      · refine ⟨P.character - D.character, ?_, ?_⟩
        · simp only [lsl, sub, if_pos l1, Resp.bind, if_pos hl, if_pos (l2 hl)]
          rw [if_pos (by omega)]
          simp
        · rw [if_pos (by omega)]
          have := l2 hl
          omega
      · refine ⟨P.character, ?_, ?_⟩
        · simp only [lsl, sub, if_pos l1, Resp.bind, if_neg hl, Nat.zero_le, if_true, Nat.sub_zero]
          rw [if_pos (by omega)]
          simp
        · rw [if_neg (by omega)]
    obtain ⟨st, hl1, hl2⟩ := hlsl
    have hline : P.line = (posOf enc (p0 ++ (x ++ gap) ++ v)).line := by rw [hadd]
    have hstep : addSpan (position (p0 ++ x ++ (gap ++ (v ++ c.span.stop)))) (p0 ++ x ++ (gap ++ (v ++ c.span.stop))) ⟨toks, D⟩ c =
        .ok ⟨toks ++ [⟨P.line - D.line, st, (v.map (width enc)).sum, ty, tokenModifierBitset i.modifiers⟩], P⟩ := by
      simp only [addSpan, hrange, Resp.bind]
      rw [if_pos hline]
      simp only [hl1, h6, t1, h7]
    obtain ⟨v', ts, a1, a2, a3⟩ := ih (p0 ++ (x ++ gap)) v (toks ++ [⟨P.line - D.line, st, (v.map (width enc)).sum, ty,
      tokenModifierBitset i.modifiers⟩])
    refine ⟨v', ⟨P.line - D.line, st, (v.map (width enc)).sum, ty, tokenModifierBitset i.modifiers⟩ :: ts, ?_, ?_, ?_⟩
    · rw [addSpans, hstep]
      simp only [Resp.bind]
      have : p0 ++ x ++ (gap ++ (v ++ c.span.stop)) = p0 ++ (x ++ gap) ++ v ++ c.span.stop := by simp
      rw [this]; rw [hP] at a1; exact a1
    · rw [a2, List.append_assoc]; rfl
    · rw [decode]
      refine ⟨gap, v, c.span.stop, by simp, h3, h4, h5, ?_, ?_⟩
      · have : p0 ++ x ++ gap = p0 ++ (x ++ gap) := by simp
        rw [this, hP]
        simp only [hl2, t2, hm, AbsToken.mk.injEq, and_true]
        omega
      · have e3 : p0 ++ x ++ gap ++ v = p0 ++ (x ++ gap) ++ v := by simp
        have e4 : (⟨D.line + (P.line - D.line), if P.line - D.line = 0 then D.character + st else st⟩ : Position) =
            posOf enc (p0 ++ (x ++ gap)) := by
          rw [hl2, hP]
          have : D.line + (P.line - D.line) = P.line := by omega
          rw [this]
        rw [e3]
        simp only [e4]
        rw [hP] at a3 ⊢; exact a3

/-- All the tokens of a file. -/
theorem visitSchema_highlighted {enc : Encoding} {position : Text → Nat → Option Position} (hp : PositionContract enc position)
    {std : Parse.Std} {text : Text} {s : Spanned.Schema} (h : Spanned.parseSchema std text = some s) :
    ∃ ts, visitSchema (position text) text s = .ok ts ∧
      Highlighted enc [] text (decode tokenTypes tokenModifiers ⟨0, 0⟩ ts) (definitionsItems std s.erase.definitions) := by
  obtain ⟨v, ts, h1, h2, h3⟩ := addSpans_cover hp (cover_schema h) [] [] []
  refine ⟨ts, ?_, h3⟩
  unfold visitSchema Visitor.new
  have : addSpans (position text) text ⟨[], ⟨0, 0⟩⟩ (visitDefinitions s.definitions) = .ok v := h1
  rw [this]
  simp only [Resp.bind, h2, List.nil_append]

end Mabo.Lsp
