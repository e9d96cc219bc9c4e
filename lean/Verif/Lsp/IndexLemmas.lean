import Verif.Lsp.Index
import Verif.Lsp.SyncLemmas
import Verif.Spec.Tokens
/-! The line index computes positions and offsets. -/
namespace Mabo.Lsp
open Mabo.Spec

/-- The unit of positions that belongs to a choice of `Index::new`. -/
def unitOf : Option WideEncoding → Encoding
  | none => .utf8
  | some .utf16 => .utf16
  | some .utf32 => .utf32

/-- The wide characters of a piece of a line. -/
def wides (col : Nat) : Text → List WideChar
  | [] => []
  | c :: cs => if c.utf8Size = 1 then wides (col + 1) cs else ⟨col, col + c.utf8Size⟩ :: wides (col + c.utf8Size) cs

theorem wide_width (enc : WideEncoding) (c : Char) (col : Nat) :
    (WideChar.mk col (col + c.utf8Size)).wideLen enc = width (unitOf (some enc)) c ∧
      width (unitOf (some enc)) c ≤ c.utf8Size := by
  have h : c.toNat < 0x10000 ↔ c.utf8Size ≠ 4 := by
    unfold Char.utf8Size Char.toNat
    simp only [UInt32.le_iff_toNat_le, UInt32.toNat_ofNatLT]
    split
    · omega
    · split
      · omega
      · split <;> omega
  have := Char.utf8Size_pos c
  have hl : (WideChar.mk col (col + c.utf8Size)).len = c.utf8Size := by simp [WideChar.len]
  cases enc
  · simp only [WideChar.wideLen, hl, unitOf, width]
    by_cases h4 : c.utf8Size = 4
    · rw [if_pos h4, if_neg (fun h' => (h.1 h') h4)]; omega
    · rw [if_neg h4, if_pos (h.2 h4)]; omega
  · exact ⟨rfl, this⟩

theorem narrow_width (enc : WideEncoding) (c : Char) (h : c.utf8Size = 1) : width (unitOf (some enc)) c = 1 := by
  have h1 := (wide_width enc c 0).2
  have := width_pos (unitOf (some enc)) c
  omega

theorem analyze_newlines_gt : ∀ (t : Text) (off col : Nat), ∀ n ∈ (analyze off col t).newlines, off < n := by
  intro t
  induction t with
  | nil => intro off col n h; cases h
  | cons c cs ih =>
    intro off col n h
    rw [analyze] at h
    split at h
    · rcases List.mem_cons.1 h with rfl | h
      · omega
      · have := ih _ _ _ h; omega
    · have : n ∈ (analyze (off + c.utf8Size) (col + c.utf8Size) cs).newlines := by
        dsimp only at h
        split at h <;> exact h
      have := ih _ _ _ this
      omega

theorem analyze_wide_cons : ∀ (t : Text) (off col : Nat), ∃ hd tl, (analyze off col t).wide = hd :: tl ∧
    ∀ c ∈ hd, col ≤ c.start ∧ c.start < c.stop := by
  intro t
  induction t with
  | nil => intro off col; exact ⟨[], [], rfl, fun _ h => (nomatch h)⟩
  | cons c cs ih =>
    intro off col
    rw [analyze]
    split
    · exact ⟨[], _, rfl, fun _ h => (nomatch h)⟩
    · obtain ⟨hd, tl, h1, h2⟩ := ih (off + c.utf8Size) (col + c.utf8Size)
      have := Char.utf8Size_pos c
      dsimp only
      split
      · exact ⟨hd, tl, h1, fun d hd' => by have := h2 d hd'; omega⟩
      · refine ⟨⟨col, col + c.utf8Size⟩ :: hd, tl, by rw [h1]; rfl, fun d hd' => ?_⟩
        rcases List.mem_cons.1 hd' with rfl | hd'
        · dsimp only; omega
        · have := h2 d hd'; omega

/-- Everything before a line feed. -/
theorem analyze_lines : ∀ (p r : Text) (off col : Nat), ∃ N W,
    (analyze off col (p ++ '\n' :: r)).newlines = N ++ (off + bytes p + 1) :: (analyze (off + bytes p + 1) 0 r).newlines ∧
    (analyze off col (p ++ '\n' :: r)).wide = W ++ (analyze (off + bytes p + 1) 0 r).wide ∧
    N.length = p.count '\n' ∧ W.length = p.count '\n' + 1 ∧ ∀ n ∈ N, n ≤ off + bytes p := by
  intro p
  induction p with
  | nil => intro r off col; exact ⟨[], [[]], by simp [analyze, bytes], by simp [analyze, bytes], rfl, rfl, fun _ h => (nomatch h)⟩
  | cons c p ih =>
    intro r off col
    rw [List.cons_append, analyze, bytes_cons, List.count_cons]
    split
    case isTrue h =>
      subst h
      obtain ⟨N, W, h1, h2, h3, h4, h5⟩ := ih r (off + 1) 0
      have e : off + ('\n'.utf8Size + bytes p) = off + 1 + bytes p := by
        rw [show '\n'.utf8Size = 1 from rfl]; omega
      rw [e]
      refine ⟨(off + 1) :: N, [] :: W, by simp [h1], by simp [h2], by simp [h3], by simp [h4], fun n hn => ?_⟩
      rcases List.mem_cons.1 hn with rfl | hn
      · omega
      · exact h5 n hn
    case isFalse h =>
      obtain ⟨N, W, h1, h2, h3, h4, h5⟩ := ih r (off + c.utf8Size) (col + c.utf8Size)
      have e : off + (c.utf8Size + bytes p) = off + c.utf8Size + bytes p := by omega
      have hz : (if (c == '\n') = true then 1 else 0) = 0 := if_neg (by simpa using h)
      rw [e, hz, Nat.add_zero]
      dsimp only
      split
      · exact ⟨N, W, h1, h2, h3, h4, h5⟩
      · cases W with
        | nil => cases h4
        | cons w W => exact ⟨N, (⟨col, col + c.utf8Size⟩ :: w) :: W, h1, by rw [h2]; rfl, h3, by simpa using h4, h5⟩

/-- A piece of a line. -/
theorem analyze_line : ∀ (l b : Text) (off col : Nat), '\n' ∉ l →
    (analyze off col (l ++ b)).newlines = (analyze (off + bytes l) (col + bytes l) b).newlines ∧
    ∃ hd tl, (analyze off col (l ++ b)).wide = (wides col l ++ hd) :: tl ∧
      (∀ c ∈ hd, col + bytes l ≤ c.start ∧ c.start < c.stop) ∧
      (analyze (off + bytes l) (col + bytes l) b).wide = hd :: tl := by
  intro l
  induction l with
  | nil =>
    intro b off col _
    obtain ⟨hd, tl, h1, h2⟩ := analyze_wide_cons b off col
    exact ⟨rfl, hd, tl, h1, h2, h1⟩
  | cons c l ih =>
    intro b off col hn
    obtain ⟨h1, hd, tl, h2, h3, h4⟩ := ih b (off + c.utf8Size) (col + c.utf8Size) (fun h => hn (List.mem_cons_of_mem _ h))
    have hc : c ≠ '\n' := fun h => hn (h ▸ List.mem_cons_self)
    rw [List.cons_append, analyze, if_neg hc, bytes_cons, wides]
    have e1 : off + (c.utf8Size + bytes l) = off + c.utf8Size + bytes l := by omega
    have e2 : col + (c.utf8Size + bytes l) = col + c.utf8Size + bytes l := by omega
    rw [e1, e2]
    dsimp only
    by_cases h : c.utf8Size = 1
    · rw [if_pos h, if_pos h]
      rw [h] at h1 h2 h3 h4 ⊢
      exact ⟨h1, hd, tl, h2, h3, h4⟩
    · rw [if_neg h, if_neg h]
      exact ⟨h1, hd, tl, by rw [h2]; rfl, h3, h4⟩

/-- `to_wide` at the end of a piece of a line. -/
theorem toWideLoop_line (enc : WideEncoding) (hd : List WideChar) : ∀ (l : Text) (col k : Nat),
    (∀ c ∈ hd, col + bytes l ≤ c.start ∧ c.start < c.stop) →
    toWideLoop enc (col + bytes l) (wides col l ++ hd) (k + bytes l) = some (k + (l.map (width (unitOf (some enc)))).sum) := by
  intro l
  induction l with
  | nil =>
    intro col k h
    cases hd with
    | nil => rfl
    | cons c hd =>
      have := h c List.mem_cons_self
      show toWideLoop enc _ (c :: hd) _ = _
      rw [toWideLoop, if_neg (by simp only [bytes, List.map_nil, List.sum_nil] at *; omega)]
      rfl
  | cons c l ih =>
    intro col k h
    rw [bytes_cons] at h
    rw [bytes_cons, List.map_cons, List.sum_cons, wides]
    have h1 := ih (col + c.utf8Size) (k + width (unitOf (some enc)) c) (fun d hd => by have := h d hd; omega)
    have e : col + (c.utf8Size + bytes l) = col + c.utf8Size + bytes l := by omega
    have e' : ∀ x, k + (width (unitOf (some enc)) c + x) = k + width (unitOf (some enc)) c + x := fun x => by omega
    rw [e, e', ← h1]
    by_cases hc : c.utf8Size = 1
    · rw [if_pos hc, narrow_width enc c hc, hc]
      congr 1; omega
    · rw [if_neg hc]
      obtain ⟨h2, h3⟩ := wide_width enc c col
      show toWideLoop enc _ (_ :: (wides _ l ++ hd)) _ = _
      rw [toWideLoop, if_pos (by dsimp only; omega), h2]
      have hl : (WideChar.mk col (col + c.utf8Size)).len = c.utf8Size := by simp [WideChar.len]
      rw [hl, if_pos (by omega)]
      congr 1; omega

/-- `to_utf8` at the end of a piece of a line. -/
theorem toUtf8Loop_line (enc : WideEncoding) (hd : List WideChar) : ∀ (l : Text) (col : Nat),
    (∀ c ∈ hd, col + bytes l ≤ c.start ∧ c.start < c.stop) →
    toUtf8Loop enc (wides col l ++ hd) (col + (l.map (width (unitOf (some enc)))).sum) = col + bytes l := by
  intro l
  induction l with
  | nil =>
    intro col h
    cases hd with
    | nil => rfl
    | cons c hd =>
      have := h c List.mem_cons_self
      show toUtf8Loop enc (c :: hd) _ = _
      rw [toUtf8Loop, if_neg (by simp only [bytes, List.map_nil, List.sum_nil] at *; omega)]
      rfl
  | cons c l ih =>
    intro col h
    rw [bytes_cons] at h
    rw [bytes_cons, List.map_cons, List.sum_cons, wides]
    have h1 := ih (col + c.utf8Size) (fun d hd => by have := h d hd; omega)
    by_cases hc : c.utf8Size = 1
    · rw [if_pos hc, narrow_width enc c hc]
      rw [hc] at h1 ⊢
      rw [← Nat.add_assoc, h1]; omega
    · rw [if_neg hc]
      obtain ⟨h2, h3⟩ := wide_width enc c col
      have := width_pos (unitOf (some enc)) c
      show toUtf8Loop enc (_ :: (wides _ l ++ hd)) _ = _
      have hl : (WideChar.mk col (col + c.utf8Size)).len = c.utf8Size := by simp [WideChar.len]
      rw [toUtf8Loop, if_pos (by dsimp only; omega), h2, hl]
      rw [show col + (width (unitOf (some enc)) c + (l.map (width (unitOf (some enc)))).sum) +
        (c.utf8Size - width (unitOf (some enc)) c) = col + c.utf8Size + (l.map (width (unitOf (some enc)))).sum by omega, h1]
      omega

theorem last_newline : ∀ a : Text, '\n' ∈ a → ∃ x y, a = x ++ '\n' :: y ∧ '\n' ∉ y := by
  intro a
  induction a with
  | nil => intro h; cases h
  | cons c a ih =>
    intro h
    by_cases h1 : '\n' ∈ a
    · obtain ⟨x, y, h2, h3⟩ := ih h1
      exact ⟨c :: x, y, by rw [h2]; rfl, h3⟩
    · rcases List.mem_cons.1 h with rfl | h
      · exact ⟨[], a, rfl, h1⟩
      · exact absurd h h1

/-- A text is one line, or ends with a line behind a line feed. -/
theorem lastLine_cases (a : Text) : ('\n' ∉ a ∧ lastLine a = a) ∨
    ∃ p, a = p ++ '\n' :: lastLine a ∧ '\n' ∉ lastLine a := by
  by_cases h : '\n' ∈ a
  · right
    obtain ⟨x, y, h1, h2⟩ : ∃ x y, a = x ++ '\n' :: y ∧ '\n' ∉ y := by
      exact last_newline a h
    rw [h1, lastLine_append_newline]
    have : lastLine y = y := by have := lastLine_append (a := []) h2; simpa [lastLine] using this
    rw [this]
    exact ⟨x, rfl, h2⟩
  · left
    have := lastLine_append (a := []) h
    exact ⟨h, by simpa [lastLine] using this⟩

/-! ### At a character boundary -/

theorem lastLine_nl {a p l : Text} (h : a = p ++ '\n' :: l) (hl : '\n' ∉ l) :
    lastLine a = l ∧ a.count '\n' = p.count '\n' + 1 ∧ bytes a = bytes p + 1 + bytes l := by
  subst h
  have : lastLine l = l := by have := lastLine_append (a := []) hl; simpa [lastLine] using this
  refine ⟨by rw [lastLine_append_newline, this], ?_, ?_⟩
  · rw [List.count_append, List.count_cons, List.count_eq_zero.2 hl]; simp
  · rw [bytes_append, bytes_cons, show '\n'.utf8Size = 1 from rfl]; omega

/-- What the index of a text knows about a place in it. -/
theorem index_at (a b : Text) : ∃ N N', (LineIndex.new (a ++ b)).newlines = N ++ N' ∧ N.length = a.count '\n' ∧
    (∀ n ∈ N, n ≤ bytes a) ∧ (∀ n ∈ N', bytes a < n) ∧
    (LineIndex.new (a ++ b)).startOffset (a.count '\n') = some (bytes a - bytes (lastLine a)) ∧
    bytes (lastLine a) ≤ bytes a ∧
    ∃ hd, (LineIndex.new (a ++ b)).wide[a.count '\n']? = some (wides 0 (lastLine a) ++ hd) ∧
      (∀ c ∈ hd, bytes (lastLine a) ≤ c.start ∧ c.start < c.stop) ∧
      ∃ off col tl, (analyze off col b).wide = hd :: tl := by
  rcases lastLine_cases a with ⟨h1, h2⟩ | ⟨p, h1, h2⟩
  · obtain ⟨h3, hd, tl, h4, h5, h5'⟩ := analyze_line a b 0 0 h1
    have hc : a.count '\n' = 0 := List.count_eq_zero.2 h1
    rw [h2, hc]
    refine ⟨[], _, h3, rfl, fun _ h => (nomatch h), fun n hn => ?_, by simp [LineIndex.startOffset], Nat.le_refl _, hd, ?_, ?_, _, _, tl, h5'⟩
    · have := analyze_newlines_gt _ _ _ n hn; omega
    · show (analyze 0 0 (a ++ b)).wide[0]? = _
      rw [h4]; rfl
    · simpa using h5
  · obtain ⟨_, h3, h4⟩ := lastLine_nl h1 h2
    generalize hl : lastLine a = l at *
    obtain ⟨N, W, h5, h6, h7, h8, h9⟩ := analyze_lines p (l ++ b) 0 0
    obtain ⟨h10, hd, tl, h11, h12, h13⟩ := analyze_line l b (0 + bytes p + 1) 0 h2
    have e : analyze 0 0 (a ++ b) = analyze 0 0 (p ++ '\n' :: (l ++ b)) := by rw [h1]; simp
    refine ⟨N ++ [bytes p + 1], (analyze (0 + bytes p + 1 + bytes l) (0 + bytes l) b).newlines, ?_, ?_, ?_, ?_, ?_, ?_, hd, ?_, ?_, _, _, tl, h13⟩
    · show (analyze 0 0 (a ++ b)).newlines = _
      rw [e, h5, h10]; simp
    · simp [h7, h3]
    · intro n hn
      rcases List.mem_append.1 hn with hn | hn
      · have := h9 n hn; omega
      · have := List.mem_singleton.1 hn; omega
    · intro n hn
      have := analyze_newlines_gt _ _ _ n hn; omega
    · rw [h3]
      show (analyze 0 0 (a ++ b)).newlines[p.count '\n']? = _
      rw [e, h5, List.getElem?_append_right (by omega), h7, Nat.sub_self, List.getElem?_cons_zero]
      congr 1; omega
    · omega
    · show (analyze 0 0 (a ++ b)).wide[a.count '\n']? = _
      rw [e, h6, h3, List.getElem?_append_right (by omega), h8, Nat.sub_self, h11]; rfl
    · simpa using h12

theorem lineCol_at (a b : Text) :
    (LineIndex.new (a ++ b)).lineCol (bytes a) = some (a.count '\n', bytes (lastLine a)) := by
  obtain ⟨N, N', h1, h2, h3, h4, h5, h6, _⟩ := index_at a b
  have : ((LineIndex.new (a ++ b)).newlines.takeWhile (· ≤ bytes a)).length = a.count '\n' := by
    rw [h1, List.takeWhile_append_of_pos (by simpa using h3)]
    have : N'.takeWhile (· ≤ bytes a) = [] := by
      cases N' with
      | nil => rfl
      | cons n N' => rw [List.takeWhile_cons, if_neg]; simpa using h4 n List.mem_cons_self
    rw [this, List.append_nil, h2]
  unfold LineIndex.lineCol
  rw [this]
  simp only [h5, Option.map_some]
  congr 2; omega

/-- `Index::get_range` at a character boundary. -/
theorem getPosition_contract (kind : String) : PositionContract (unitOf (wideEncoding kind)) (getPosition kind) := by
  intro a b
  unfold getPosition
  simp only [lineCol_at, Option.bind_some]
  cases h : wideEncoding kind with
  | none => rfl
  | some enc =>
    obtain ⟨_, _, _, _, _, _, _, _, hd, h7, h8, _⟩ := index_at a b
    have := toWideLoop_line enc hd (lastLine a) 0 0 (by simpa using h8)
    simp only [Nat.zero_add] at this
    simp only [LineIndex.toWide, h7, Option.getD_some, this, Option.map_some]
    rfl

/-- `Index::get_offset` at a character boundary. -/
theorem getOffset_contract (kind : String) : OffsetContract (unitOf (wideEncoding kind)) (getOffset kind) := by
  intro a b
  unfold getOffset
  obtain ⟨_, _, _, _, _, _, h5, h6, hd, h7, h8, _⟩ := index_at a b
  cases h : wideEncoding kind with
  | none =>
    simp only [LineIndex.offset, posOf, h5, Option.map_some]
    show some (_ + bytes (lastLine a)) = _
    congr 1; omega
  | some enc =>
    have := toUtf8Loop_line enc hd (lastLine a) 0 (by simpa using h8)
    simp only [Nat.zero_add] at this
    simp only [LineIndex.offset, LineIndex.toUtf8, posOf, h5, h7, Option.map_some, Option.getD_some, this]
    congr 1; omega

theorem toUtf8Loop_past (enc : WideEncoding) (n : Nat) : ∀ (l : Text) (col : Nat),
    toUtf8Loop enc (wides col l) (col + (l.map (width (unitOf (some enc)))).sum + n) = col + bytes l + n := by
  intro l
  induction l with
  | nil => intro col; rfl
  | cons c l ih =>
    intro col
    rw [bytes_cons, List.map_cons, List.sum_cons, wides]
    have h1 := ih (col + c.utf8Size)
    by_cases hc : c.utf8Size = 1
    · rw [if_pos hc, narrow_width enc c hc]
      rw [hc] at h1 ⊢
      rw [← Nat.add_assoc, h1]; omega
    · rw [if_neg hc]
      obtain ⟨h2, h3⟩ := wide_width enc c col
      have := width_pos (unitOf (some enc)) c
      have hl : (WideChar.mk col (col + c.utf8Size)).len = c.utf8Size := by simp [WideChar.len]
      rw [toUtf8Loop, if_pos (by dsimp only; omega), h2, hl]
      rw [show col + (width (unitOf (some enc)) c + (l.map (width (unitOf (some enc)))).sum) + n +
        (c.utf8Size - width (unitOf (some enc)) c) = col + c.utf8Size + (l.map (width (unitOf (some enc)))).sum + n by omega, h1]
      omega

/-- `Index::get_offset` behind the end of a line. -/
theorem getOffset_past (kind : String) (a b : Text) (hb : b = [] ∨ ∃ b', b = '\n' :: b') (n : Nat) :
    getOffset kind (a ++ b) ⟨a.count '\n', (posOf (unitOf (wideEncoding kind)) a).character + n⟩ = some (bytes a + n) := by
  unfold getOffset
  obtain ⟨_, _, _, _, _, _, h5, h6, hd, h7, h8, off, col, tl, h9⟩ := index_at a b
  have : hd = [] := by
    rcases hb with rfl | ⟨b', rfl⟩
    · simp only [analyze, List.cons.injEq] at h9; exact h9.1.symm
    · simp only [analyze, if_true, List.cons.injEq] at h9; exact h9.1.symm
  subst this
  rw [List.append_nil] at h7
  cases h : wideEncoding kind with
  | none =>
    simp only [LineIndex.offset, posOf, h5, Option.map_some]
    show some (_ + (bytes (lastLine a) + n)) = _
    congr 1; omega
  | some enc =>
    have := toUtf8Loop_past enc n (lastLine a) 0
    simp only [Nat.zero_add] at this
    simp only [LineIndex.offset, LineIndex.toUtf8, posOf, h5, h7, Option.map_some, Option.getD_some, this]
    congr 1; omega

theorem analyze_newlines_length : ∀ (t : Text) (off col : Nat), (analyze off col t).newlines.length = t.count '\n' := by
  intro t
  induction t with
  | nil => intro off col; rfl
  | cons c cs ih =>
    intro off col
    rw [analyze, List.count_cons]
    by_cases h : c = '\n'
    · subst h; simp [ih]
    · have hz : (if (c == '\n') = true then 1 else 0) = 0 := if_neg (by simpa using h)
      rw [if_neg h, hz, Nat.add_zero]
      dsimp only
      split <;> exact ih _ _

/-- `Index::get_offset` behind the last line. -/
theorem getOffset_no_line (kind : String) (t : Text) (p : Position) (h : t.count '\n' < p.line) : getOffset kind t p = none := by
  have hs : (LineIndex.new t).startOffset p.line = none := by
    obtain ⟨l, hl⟩ : ∃ l, p.line = l + 1 := ⟨p.line - 1, by omega⟩
    rw [hl]
    show (analyze 0 0 t).newlines[l]? = none
    rw [List.getElem?_eq_none]
    rw [analyze_newlines_length]; omega
  unfold getOffset
  cases wideEncoding kind with
  | none => simp only [LineIndex.offset, hs]; rfl
  | some enc => simp only [LineIndex.offset, LineIndex.toUtf8, hs]; rfl

end Mabo.Lsp
