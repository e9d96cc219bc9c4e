import Verif.Lsp.TokensDefs
import Verif.Lsp.TokensMain
import Verif.Spec.Outline
/-! Where the parts of a file are in its text. -/
namespace Mabo.Lsp
open Mabo.Parse Mabo.Spanned Mabo.Spec Mabo.Spec.Doc

/-- A part and its span. -/
abbrev Mark := Span × Segment

/-- The parts lie one after the other between the inputs `s` and `r`. -/
inductive Lies : Text → Text → List Mark → Prop
  | nil {s r : Text} : r <:+ s → Lies s r []
  | cons {s r v : Text} {x : Span} {g : Segment} {ms : List Mark} : (v ++ x.stop) <:+ s → x.start = v ++ x.stop → v ≠ [] →
      g.text v → Lies x.stop r ms → Lies s r ((x, g) :: ms)

theorem Lies.pre {s s' r : Text} {ms : List Mark} (h : Lies s r ms) (hs : s <:+ s') : Lies s' r ms := by
  cases h with
  | nil h => exact .nil (h.trans hs)
  | cons h1 h2 h3 h4 h5 => exact .cons (h1.trans hs) h2 h3 h4 h5

theorem Lies.post {s r r' : Text} {ms : List Mark} (h : Lies s r ms) (hr : r' <:+ r) : Lies s r' ms := by
  induction h with
  | nil h => exact .nil (hr.trans h)
  | cons h1 h2 h3 h4 _ ih => exact .cons h1 h2 h3 h4 (ih hr)

theorem Lies.append {s m r : Text} {ms ms' : List Mark} (h : Lies s m ms) (h' : Lies m r ms') : Lies s r (ms ++ ms') := by
  induction h with
  | nil h => exact h'.pre h
  | cons h1 h2 h3 h4 _ ih => exact .cons h1 h2 h3 h4 (ih h')

/-- The parts are these. -/
structure LiesAs (s r : Text) (ms : List Mark) (gs : List Segment) : Prop where
  lies : Lies s r ms
  segs : ms.map (·.2) = gs

theorem LiesAs.pre {s s' r : Text} {ms : List Mark} {gs} (h : LiesAs s r ms gs) (hs : s <:+ s') : LiesAs s' r ms gs :=
  ⟨h.1.pre hs, h.2⟩
theorem LiesAs.post {s r r' : Text} {ms : List Mark} {gs} (h : LiesAs s r ms gs) (hr : r' <:+ r) : LiesAs s r' ms gs :=
  ⟨h.1.post hr, h.2⟩
theorem LiesAs.append {s m r : Text} {ms ms' : List Mark} {gs gs'} (h : LiesAs s m ms gs) (h' : LiesAs m r ms' gs') :
    LiesAs s r (ms ++ ms') (gs ++ gs') := ⟨h.1.append h'.1, by rw [List.map_append, h.2, h'.2]⟩
theorem LiesAs.one {s r v : Text} {x : Span} {g : Segment} (hs : s = v ++ r) (hx : x = ⟨s, r⟩) (hv : v ≠ []) (hg : g.text v) :
    LiesAs s r [(x, g)] [g] := by
  subst hx hs
  exact ⟨.cons List.suffix_rfl rfl hv hg (.nil List.suffix_rfl), rfl⟩
theorem LiesAs.nil {s r : Text} (h : r <:+ s) : LiesAs s r [] [] := ⟨.nil h, rfl⟩

/-- The marks of calls that declare nothing. -/
def marksOf (cs : List Call) (is : List Item) : List Mark := (cs.zip is).map fun x => (x.1.span, plain x.2)

theorem Cover.lies {s r : Text} {cs : List Call} {is : List Item} (h : Cover s r cs is) :
    LiesAs s r (marksOf cs is) (is.map plain) := by
  induction h with
  | nil h => exact .nil h
  | cons h1 h2 h3 _ h5 _ _ _ _ ih =>
    exact ⟨.cons h1 h2 h3 h5 ih.1, by have := ih.2; simp only [marksOf] at this; simp [marksOf, this]⟩

/-- The marks and parts of the results of a parser. -/
def Loc {α : Type} (p : P α) (marks : α → List Mark) (segs : α → List Segment) : Prop :=
  ∀ {s a r}, p s = .ok a r → LiesAs s r (marks a) (segs a)

variable {α : Type} {p : P α} {marks : α → List Mark} {segs : α → List Segment}

theorem loc_cov {calls : α → List Call} {items : α → List Item} (h : Cov p calls items) :
    Loc p (fun a => marksOf (calls a) (items a)) (fun a => (items a).map plain) := fun e => (h e).lies

theorem loc_sp (h : Loc p marks segs) : Loc (sp p) marks segs := fun e => by
  rw [sp_run] at e; exact (h e).pre (List.dropWhile_suffix _)
theorem loc_ws (h : Loc p marks segs) : Loc (ws p) marks segs := fun e => by
  rw [ws_run] at e; exact (h e).pre (List.dropWhile_suffix _)

theorem loc_many (h : Loc p marks segs) : Loc (many p) (fun as => as.flatMap marks) (fun as => as.flatMap segs) := by
  have : ∀ n {s as r}, manyAux p n s = .ok as r → LiesAs s r (as.flatMap marks) (as.flatMap segs) := by
    intro n
    induction n with
    | zero => intro s as r h; cases h
    | succ n ih =>
      intro s as r e
      rcases manyAux_eq_ok e with ⟨rfl, rfl, _⟩ | ⟨a, as', m, rfl, h1, h2⟩
      · exact .nil List.suffix_rfl
      · rw [List.flatMap_cons, List.flatMap_cons]
        exact (h h1).append (ih h2)
  intro s a r h; exact this _ h

theorem loc_name (g : String → Segment) (hg : ∀ n, (g n).text = (· = n.toList)) {hd tl : Char → Bool} :
    Loc (named (Parse.name hd tl)) (fun n => [(n.span, g n.value)]) (fun n => [g n.value]) := fun {s n r} e => by
  obtain ⟨e', hs⟩ := named_eq_ok e
  obtain ⟨h1, ⟨c, cs, h3, _⟩, _⟩ := name_eq_ok e'
  exact .one h1 hs (by rw [h3]; simp) (by rw [hg])

/-! ### Lists -/

/-- The marks of a punctuated list. -/
def listMarks (marks : α → List Mark) : List α → List Span → Option Span → List Mark
  | [], _, _ => []
  | [a], _, last => marks a ++ (match last with | some c => [(c, plain (word "comma" ","))] | none => [])
  | a :: as, c :: cs, last => marks a ++ (c, plain (word "comma" ",")) :: listMarks marks as cs last
  | a :: as, [], last => marks a ++ listMarks marks as [] last

theorem listMarks_snoc (marks : α → List Mark) : ∀ (xs : List (α × Span)) (a : α) (t : Option Span),
    listMarks marks (xs.map (·.1) ++ [a]) (xs.map (·.2)) t =
      xs.flatMap (fun x => marks x.1 ++ [(x.2, plain (word "comma" ","))]) ++
        (marks a ++ (match t with | some c => [(c, plain (word "comma" ","))] | none => []))
  | [], a, t => rfl
  | x :: xs, a, t => by
    have e : listMarks marks ((x :: xs).map (·.1) ++ [a]) ((x :: xs).map (·.2)) t =
        marks x.1 ++ (x.2, plain (word "comma" ",")) :: listMarks marks (xs.map (·.1) ++ [a]) (xs.map (·.2)) t := by
      cases xs <;> rfl
    rw [e, listMarks_snoc marks xs]
    simp

theorem separatedParts_snoc : ∀ (xs : List (List Segment)) (a : List Segment) (t : Bool), separatedParts (xs ++ [a]) t =
    xs.flatMap (fun x => x ++ [plain (word "comma" ",")]) ++ (a ++ (if t then [plain (word "comma" ",")] else []))
  | [], a, t => rfl
  | x :: xs, a, t => by
    have e : separatedParts (x :: xs ++ [a]) t = x ++ plain (word "comma" ",") :: separatedParts (xs ++ [a]) t := by
      cases xs <;> rfl
    rw [e, separatedParts_snoc xs]
    simp

theorem loc_comma : Loc (ws (span (chr ','))) (fun x => [(x, plain (word "comma" ","))])
    (fun _ => [plain (word "comma" ",")]) := fun e => (cov_comma e).lies

/-- Indexed lists with commas. -/
theorem loc_commaList {marks : α × Nat → List Mark} {segs : α × Nat → List Segment}
    (h : ∀ i, Loc p (fun a => marks (a, i)) (fun a => segs (a, i))) :
    Loc (Spanned.commaList p) (fun d => listMarks marks d.values.zipIdx d.commas d.last)
      (fun d => separatedParts (d.values.zipIdx.map segs) d.last.isSome) := by
  intro s d r e
  obtain ⟨xs, m, a, t, h1, h2, rfl⟩ := punctuateAux_chain e (.nil s) (fun _ _ e => by cases e)
  clear e
  have c1 : LiesAs s m ((xs.zipIdx.map fun y => ((y.1.1, y.2), y.1.2)).flatMap fun x =>
        marks x.1 ++ [(x.2, plain (word "comma" ","))])
      (((xs.map (·.1)).zipIdx.map segs).flatMap fun x => x ++ [plain (word "comma" ",")]) := by
    clear h2
    induction h1 with
    | nil => exact .nil List.suffix_rfl
    | @snoc m r xs x _ hf ih =>
      obtain ⟨a, m1, h3, e1⟩ := bind_eq_ok hf
      obtain ⟨c, m2, h4, e2⟩ := bind_eq_ok e1
      obtain ⟨rfl, rfl⟩ := pure_eq_ok e2
      have := ih.append ((h xs.length h3).append (loc_comma h4))
      simpa [List.zipIdx_append] using this
  obtain ⟨a', m1, h3, e1⟩ := bind_eq_ok h2
  obtain ⟨o, m2, h4, e2⟩ := bind_eq_ok e1
  obtain ⟨e5, rfl⟩ := pure_eq_ok e2
  cases e5
  have e3 : (xs.map (·.1) ++ [a]).zipIdx = (xs.zipIdx.map fun y => ((y.1.1, y.2), y.1.2)).map (·.1) ++ [(a, xs.length)] := by
    rw [List.zipIdx_append, List.zipIdx_map]; simp [Function.comp_def]
  have e4 : xs.map (·.2) = (xs.zipIdx.map fun y => ((y.1.1, y.2), y.1.2)).map (·.2) := by
    rw [List.map_map]
    exact (congrArg (List.map Prod.snd) (List.zipIdx_map_fst 0 xs)).symm.trans (by rw [List.map_map]; rfl)
  have e6 : (xs.map (·.1) ++ [a]).zipIdx.map segs = (xs.map (·.1)).zipIdx.map segs ++ [segs (a, xs.length)] := by
    rw [List.zipIdx_append]; simp
  simp only
  rw [e6, e3, e4, listMarks_snoc, separatedParts_snoc]
  refine c1.append ((h xs.length h3).append ?_)
  rcases opt_eq_ok h4 with ⟨c, rfl, e7⟩ | ⟨rfl, rfl, _⟩
  · exact loc_comma e7
  · exact .nil List.suffix_rfl

theorem map_zipIdx_fst {β : Type} (f : α → β) (l : List α) : l.zipIdx.map (fun x => f x.1) = l.map f := by
  have := congrArg (List.map f) (List.zipIdx_map_fst 0 l)
  rw [List.map_map] at this
  exact this

theorem loc_surround {os cs : String} {o c : Char} (h : Loc p marks segs) (ho : os.toList = [o]) (hc : cs.toList = [c]) :
    Loc (Spanned.surround o c p)
      (fun d => (d.opening, plain (word "" os)) :: (marks d.inner ++ [(d.closing, plain (word "" cs))]))
      (fun d => delimitedParts os cs (segs d.inner)) := by
  intro s d r e
  obtain ⟨x, m, h1, e1⟩ := bind_eq_ok e
  obtain ⟨a, m1, h2, e2⟩ := bind_eq_ok (cutErr_ok.1 e1)
  obtain ⟨y, m2, h3, e3⟩ := bind_eq_ok e2
  obtain ⟨rfl, rfl⟩ := pure_eq_ok e3
  have one : ∀ {c : Char} {cs : String}, cs.toList = [c] → Loc (span (chr c)) (fun x => [(x, plain (word "" cs))])
      (fun _ => [plain (word "" cs)]) := by
    intro c cs hc s x r e
    obtain ⟨⟨_, e'⟩, rfl⟩ := span_eq_ok e
    exact .one (v := [c]) (chr_eq_ok e') rfl (by simp) hc.symm
  have := ((one ho h1).append (h h2)).append (loc_ws (one hc) h3)
  simpa [delimitedParts] using this

/-! ### The text of a field without name -/

/-- The calls begin and end where the parser did. -/
def Tight (s r : Text) (cs : List Call) : Prop :=
  (∃ c, cs.head? = some c ∧ c.span.start = s) ∧ ∃ c, cs.getLast? = some c ∧ c.span.stop = r

theorem Cover.spells {s r : Text} {l : List Call} {is : List Item} (h : Cover s r l is) :
    ∀ c cs, l = c :: cs → (∃ c', l.getLast? = some c' ∧ c'.span.stop = r) →
      ∃ u, c.span.start = u ++ r ∧ u ≠ [] ∧ Spells u is := by
  induction h with
  | nil _ => intro c cs e; cases e
  | @cons s r v c i cs is h1 h2 h3 h4 h5 _ _ _ h9 ih =>
    rintro _ _ ⟨⟩ ⟨c', hl, hr⟩
    cases h9 with
    | nil h10 =>
      have : c = c' := by simpa using hl
      subst this
      exact ⟨v, by rw [h2, hr], h3, .one h5⟩
    | @cons _ _ v' c2 i2 cs2 is2 g1 g2 g3 g4 g5 g6 g7 g8 g9 =>
      obtain ⟨gap, hgap⟩ := g1
      obtain ⟨u, e1, e2, e3⟩ := ih c2 cs2 rfl ⟨c', by simpa using hl, hr⟩
      refine ⟨v ++ gap ++ u, ?_, by simp [h3], .cons h5 e3⟩
      rw [h2, ← hgap, ← g2, e1]; simp

theorem Tight.spells {s r : Text} {cs : List Call} {is : List Item} (h : Cover s r cs is) (ht : Tight s r cs) :
    ∃ u, s = u ++ r ∧ u ≠ [] ∧ Spells u is := by
  obtain ⟨⟨c, hc, hs⟩, h2⟩ := ht
  cases cs with
  | nil => cases hc
  | cons d ds => cases hc; rw [← hs]; exact h.spells _ _ rfl h2

end Mabo.Lsp
