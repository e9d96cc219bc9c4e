import Verif.Lsp.DiagParsed
import Verif.Lsp.DiagScan
import Verif.Lsp.OutlineMain
/-! Where the parts of a tree are among the tokens of the file, and the ranges of their spans. -/
namespace Mabo.Lsp
open Mabo.Parse Mabo.Spanned Mabo.Spec Mabo.Spec.Doc Mabo.Spec.Diag

/-- The calls `cs` are among the calls `C`, behind the first `n` ones. -/
def At (C : List Call) (n : Nat) (cs : List Call) : Prop := ∃ A B, C = A ++ (cs ++ B) ∧ A.length = n

theorem At.self (C : List Call) : At C 0 C := ⟨[], [], by simp, rfl⟩

theorem At.mid {C : List Call} {n : Nat} {xs ys zs : List Call} (h : At C n (xs ++ (ys ++ zs))) : At C (n + xs.length) ys := by
  obtain ⟨A, B, rfl, rfl⟩ := h
  exact ⟨A ++ xs, zs ++ B, by simp, by simp⟩

theorem At.right {C : List Call} {n : Nat} {xs ys : List Call} (h : At C n (xs ++ ys)) : At C (n + xs.length) ys :=
  At.mid (zs := []) (by simpa using h)

theorem At.left {C : List Call} {n : Nat} {xs ys : List Call} (h : At C n (xs ++ ys)) : At C n xs :=
  At.mid (xs := []) (by simpa using h)

theorem At.get {C : List Call} {n : Nat} {cs : List Call} (h : At C n cs) {i : Nat} (hi : i < cs.length) : C[n + i]? = cs[i]? := by
  obtain ⟨A, B, rfl, rfl⟩ := h
  rw [List.getElem?_append_right (by omega), List.getElem?_append_left (by omega)]
  congr 1; omega

/-- The calls are in the text. -/
def AllIn (text : Text) (C : List Call) : Prop := ∀ c ∈ C, ∃ a v b : Text, text = a ++ (v ++ b) ∧ c.span = ⟨v ++ b, b⟩

theorem marksOf_spans : ∀ (cs : List Call) (is : List Item), cs.length = is.length →
    (marksOf cs is).map (·.1) = cs.map (·.span)
  | [], _, _ => rfl
  | c :: cs, [], h => by cases h
  | c :: cs, i :: is, h => by
    have := marksOf_spans cs is (by simpa using h)
    simp only [marksOf] at this
    simp [marksOf, this]

section
variable {std : Std} {text : Text} {s : Spanned.Schema}

theorem allIn_schema (h : Spanned.parseSchema std text = some s) : AllIn text (visitDefinitions s.definitions) := by
  have hc := cover_schema h
  intro c hm
  have hs := marksOf_spans _ _ hc.length_eq
  have : c.span ∈ (marksOf (visitDefinitions s.definitions) (definitionsItems std s.erase.definitions)).map (·.1) := by
    rw [hs]; exact List.mem_map.2 ⟨c, hm, rfl⟩
  obtain ⟨m, h1, h2⟩ := List.mem_map.1 this
  obtain ⟨a, v, b, h3, h4, _⟩ := hc.lies.lies.inText text [] rfl m h1
  exact ⟨a, v, b, h3, by rw [← h2, h4]⟩

/-- The places of the tokens. -/
def placesOf (text : Text) (s : Spanned.Schema) : List Place := (visitDefinitions s.definitions).map fun c => placeOf text c.span

theorem placed_schema (h : Spanned.parseSchema std text = some s) :
    Placed [] text (placesOf text s) ((definitionsItems std s.erase.definitions).map plain) := by
  have hc := cover_schema h
  have hs := marksOf_spans _ _ hc.length_eq
  have hp := hc.lies.lies.placed text [] rfl
  rw [hc.lies.segs] at hp
  have e : placesOf text s = (marksOf (visitDefinitions s.definitions) (definitionsItems std s.erase.definitions)).map
      fun m => placeOf text m.1 := by
    have := congrArg (List.map (placeOf text)) hs
    rw [List.map_map, List.map_map] at this
    exact this.symm
  rw [e]; exact hp
end

theorem placeOf_span {text a v b : Text} {x : Span} (h : text = a ++ (v ++ b)) (hx : x = ⟨v ++ b, b⟩) : placeOf text x = ⟨a, v⟩ := by
  subst h hx; exact placeOf_eq a v b

/-! ### Ranges -/

section
variable {enc : Encoding} {position : Text → Nat → Option Position} (hp : PositionContract enc position) {text : Text}
include hp

theorem expectRange_ok {a b w w' : Text} (h : text = a ++ w) (h' : text = b ++ w') :
    expectRange (position text) text ⟨w, w'⟩ = .ok (posOf enc a, posOf enc b) := by
  have e1 : Spanned.offset text w = bytes a := by rw [h]; exact offset_append _ _
  have e2 : Spanned.offset text w' = bytes b := by rw [h']; exact offset_append _ _
  have e3 : position text (bytes a) = some (posOf enc a) := by rw [h]; exact hp _ _
  have e4 : position text (bytes b) = some (posOf enc b) := by rw [h']; exact hp _ _
  simp only [expectRange, getRange, e1, e2, e3, e4]

/-- A span over calls. -/
theorem covers_span {C : List Call} (hC : AllIn text C) {n : Nat} {cs : List Call} (h : At C n cs) {a b : Call}
    (ha : cs.head? = some a) (hb : cs.getLast? = some b) :
    ∃ r, expectRange (position text) text ⟨a.span.start, b.span.stop⟩ = .ok r ∧
      Covers enc (C.map fun c => placeOf text c.span) n cs.length r := by
  have hne : 0 < cs.length := by cases cs with | nil => cases ha | cons _ _ => simp
  have ga : C[n]? = some a := by
    have := h.get hne
    rw [Nat.add_zero] at this
    rw [this, ← List.head?_eq_getElem?]; exact ha
  have gb : C[n + cs.length - 1]? = some b := by
    have := h.get (i := cs.length - 1) (by omega)
    rw [show n + cs.length - 1 = n + (cs.length - 1) by omega, this, ← List.getLast?_eq_getElem?]; exact hb
  obtain ⟨a1, v1, b1, e1, s1⟩ := hC a (List.mem_of_getElem? ga)
  obtain ⟨a2, v2, b2, e2, s2⟩ := hC b (List.mem_of_getElem? gb)
  refine ⟨_, ?_, placeOf text a.span, placeOf text b.span, ?_, hne, ?_, rfl⟩
  · have p1 : placeOf text a.span = ⟨a1, v1⟩ := placeOf_span e1 s1
    have p2 : placeOf text b.span = ⟨a2, v2⟩ := placeOf_span e2 s2
    rw [p1, p2, s1, s2]
    exact expectRange_ok hp e1 (by rw [e2]; simp)
  · rw [List.getElem?_map, ga]; rfl
  · rw [List.getElem?_map, gb]; rfl

/-- The span of one call. -/
theorem covers_one {C : List Call} (hC : AllIn text C) {n : Nat} {c : Call} (h : At C n [c]) :
    ∃ r, expectRange (position text) text c.span = .ok r ∧ Covers enc (C.map fun c => placeOf text c.span) n 1 r :=
  covers_span hp hC h rfl rfl

/-- A span with blanks around. -/
theorem surrounds_span {C : List Call} (hC : AllIn text C) {n : Nat} {cs : List Call} (h : At C n cs) {sp : Span}
    (hs : SpanOk text cs sp) :
    ∃ r, expectRange (position text) text sp = .ok r ∧
      Surrounds enc text (C.map fun c => placeOf text c.span) n cs.length r := by
  obtain ⟨a, b, x, y, ha, hb, h1, h2, h3, h4, h5⟩ := hs
  have hne : 0 < cs.length := by cases cs with | nil => cases ha | cons _ _ => simp
  have ga : C[n]? = some a := by
    have := h.get hne
    rw [Nat.add_zero] at this
    rw [this, ← List.head?_eq_getElem?]; exact ha
  have gb : C[n + cs.length - 1]? = some b := by
    have := h.get (i := cs.length - 1) (by omega)
    rw [show n + cs.length - 1 = n + (cs.length - 1) by omega, this, ← List.getLast?_eq_getElem?]; exact hb
  obtain ⟨a1, v1, b1, e1, s1⟩ := hC a (List.mem_of_getElem? ga)
  obtain ⟨a2, v2, b2, e2, s2⟩ := hC b (List.mem_of_getElem? gb)
  have p1 : placeOf text a.span = ⟨a1, v1⟩ := placeOf_span e1 s1
  have p2 : placeOf text b.span = ⟨a2, v2⟩ := placeOf_span e2 s2
  obtain ⟨pre, hpre⟩ := h5
  rw [s1] at h1
  rw [s2] at h2
  have q1 : a1 = pre ++ x := by
    have : pre ++ x ++ (v1 ++ b1) = a1 ++ (v1 ++ b1) := by rw [← e1, ← hpre, h1]; simp
    exact (List.append_cancel_right this).symm
  have q2 : text = a2 ++ v2 ++ y ++ sp.stop := by
    rw [e2]; simp only at h2; rw [h2]; simp
  refine ⟨(posOf enc pre, posOf enc (a2 ++ v2 ++ y)), ?_, ⟨a1, v1⟩, ⟨a2, v2⟩, pre, x, y, ?_, hne, ?_, q1, h3, h4, ⟨sp.stop, ?_⟩, rfl⟩
  · exact expectRange_ok hp (w := sp.start) (w' := sp.stop) hpre.symm q2
  · rw [List.getElem?_map, ga, Option.map_some, p1]
  · rw [List.getElem?_map, gb, Option.map_some, p2]
  · exact q2.symm
end

/-! ### Elements of lists -/

theorem visitList_at {α : Type} (visit : α → List Call) : ∀ (as : List α) (cs : List Span) (last : Option Span) (i : Nat) (a : α),
    cs.length + 1 = as.length → as[i]? = some a →
    ∃ pre post, visitList visit as cs last = pre ++ (visit a ++ post) ∧
      pre.length = ((as.take i).map fun x => (visit x).length + 1).sum
  | [], _, _, _, _, h, _ => by cases h
  | [b], _, last, 0, a, _, h => by
    simp only [List.getElem?_cons_zero, Option.some.injEq] at h; subst h
    exact ⟨[], _, rfl, by simp⟩
  | [b], _, _, i + 1, a, _, h => by simp at h
  | b :: b' :: as, [], _, _, _, h, _ => by simp at h
  | b :: b' :: as, c :: cs, last, 0, a, _, h => by
    simp only [List.getElem?_cons_zero, Option.some.injEq] at h; subst h
    exact ⟨[], _, rfl, by simp⟩
  | b :: b' :: as, c :: cs, last, i + 1, a, hl, h => by
    obtain ⟨pre, post, h1, h2⟩ := visitList_at visit (b' :: as) cs last i a (by simpa using hl) (by simpa using h)
    refine ⟨visit b ++ ⟨c, "comma", []⟩ :: pre, post, ?_, ?_⟩
    · simp only [visitList, h1]; simp
    · rw [List.take_succ_cons, List.map_cons, List.sum_cons, ← h2]; simp; omega

theorem sum_commas {α : Type} {β : Type} {visit : α → List Call} {items : β → List Item} {m : α → β} {as : List α}
    (h : ∀ a ∈ as, (visit a).length = (items (m a)).length) (i : Nat) :
    ((as.take i).map fun x => (visit x).length + 1).sum = withCommas (((as.map m).take i).map items) := by
  unfold withCommas
  rw [← List.map_take, List.map_map, List.map_map]
  congr 1
  refine List.map_congr_left fun a ha => ?_
  simp [h a (List.mem_of_mem_take ha)]

/-- An element of a list among the calls. -/
theorem list_at {α β : Type} {visit : α → List Call} {items : β → List Item} {m : α → β} {P : α → Prop} {d : Punctuated α} {C : List Call}
    {n : Nat} (hl : ListOk P d) (hlen : ∀ a, P a → (visit a).length = (items (m a)).length)
    (h : At C n (visitList visit d.values d.commas d.last)) {i : Nat} {a : α} (ha : d.values[i]? = some a) :
    P a ∧ At C (n + withCommas (((d.values.map m).take i).map items)) (visit a) := by
  have hm := hl.all a (List.mem_of_getElem? ha)
  refine ⟨hm, ?_⟩
  obtain ⟨pre, post, h1, h2⟩ := visitList_at visit d.values d.commas d.last i a hl.commas ha
  rw [h1] at h
  have := h.mid
  rw [h2, sum_commas (items := items) (m := m) (fun a ha => hlen a (hl.all a ha))] at this
  exact this

end Mabo.Lsp
