import Verif.Doc.Html
import Verif.Spec.DocHtml
/-!
Reading HTML piece by piece: texts of templates, escaped text, converted Markdown.
-/
namespace Mabo.Doc
open Mabo.Spec.Html
open Mabo.Parse (Text)

/-- Reading `t` leads from `s` to `s'` with the events `es`. -/
def Scans (s : Reader) (t : Text) (s' : Reader) (es : List Event) : Prop := s.scan t = some (s', es)

instance (s : Reader) (t : Text) (s' : Reader) (es : List Event) : Decidable (Scans s t s' es) :=
  inferInstanceAs (Decidable (s.scan t = some (s', es)))

theorem Scans.nil (s : Reader) : Scans s [] s [] := rfl

theorem scan_append (s : Reader) (a b : Text) :
    s.scan (a ++ b) = (s.scan a).bind fun r => (r.1.scan b).map fun q => (q.1, r.2 ++ q.2) := by
  induction a generalizing s with
  | nil =>
    simp only [List.nil_append, Reader.scan, Option.bind_some]
    cases s.scan b <;> rfl
  | cons c cs ih =>
    simp only [List.cons_append, Reader.scan]
    cases h : s.step c with
    | none => rfl
    | some r =>
      obtain ⟨s', es⟩ := r
      simp only [ih]
      cases h2 : s'.scan cs with
      | none => rfl
      | some q =>
        simp only [Option.bind_some, Option.map_some]
        cases q.1.scan b <;> simp

theorem Scans.append {s s1 s2 : Reader} {a b : Text} {e1 e2 : List Event} (h1 : Scans s a s1 e1) (h2 : Scans s1 b s2 e2) :
    Scans s (a ++ b) s2 (e1 ++ e2) := by
  unfold Scans at *
  rw [scan_append, h1]
  simp [h2]

theorem Scans.cons {s s1 s2 : Reader} {c : Char} {b : Text} {e1 e2 : List Event} (h1 : s.step c = some (s1, e1))
    (h2 : Scans s1 b s2 e2) : Scans s (c :: b) s2 (e1 ++ e2) := by
  unfold Scans at *
  simp [Reader.scan, h1, h2]

/-- Between tags. -/
def D (f : Bool) : Reader := ⟨.data, f, 0⟩

/-! ### Escaped text -/

theorem escape_append (a b : Text) : escape (a ++ b) = escape a ++ escape b := by
  induction a with
  | nil => rfl
  | cons c cs ih => simp [escape, ih]

theorem joined_cons (f : Bool) (c : Char) (cs : Text) :
    ∃ f', joined f (c :: cs) = joined f [c] ++ joined f' cs ∧ ∀ p, ∀ m, p = 0 → m = Mode.data →
      Scans ⟨m, f, p⟩ (escapeChar c) ⟨.data, f', p⟩ ((joined f [c]).map .chr) := by
  by_cases h1 : c = '<'
  · subst h1; exact ⟨false, by simp [joined], fun p m hp hm => by subst hp; subst hm; cases f <;> decide +kernel⟩
  by_cases h2 : c = '>'
  · subst h2; exact ⟨false, by simp [joined], fun p m hp hm => by subst hp; subst hm; cases f <;> decide +kernel⟩
  by_cases h3 : c = '&'
  · subst h3; exact ⟨false, by simp [joined], fun p m hp hm => by subst hp; subst hm; cases f <;> decide +kernel⟩
  by_cases h4 : c = '"'
  · subst h4; exact ⟨false, by simp [joined], fun p m hp hm => by subst hp; subst hm; cases f <;> decide +kernel⟩
  by_cases h5 : c = '\''
  · subst h5; exact ⟨false, by simp [joined], fun p m hp hm => by subst hp; subst hm; cases f <;> decide +kernel⟩
  by_cases h6 : c = '\n'
  · subst h6; exact ⟨true, by simp [joined], fun p m hp hm => by subst hp; subst hm; cases f <;> decide +kernel⟩
  by_cases h7 : c = ' ' ∧ f = true
  · obtain ⟨h7, rfl⟩ := h7
    subst h7; exact ⟨true, by simp [joined], fun p m hp hm => by subst hp; subst hm; decide +kernel⟩
  · refine ⟨false, by simp [joined, h6, h7], fun p m hp hm => ?_⟩
    subst hp; subst hm
    have e : escapeChar c = [c] := by simp [escapeChar, h1, h2, h3, h4, h5]
    rw [e]
    have hs : (⟨.data, f, 0⟩ : Reader).step c = some (⟨.data, false, 0⟩, [.chr c]) := by
      simp only [Reader.step]
      rw [if_neg h1, if_neg h3, if_neg (fun x => h6 x.2), if_neg (fun x => h7 x.2)]
    have := Scans.cons hs (Scans.nil _)
    simpa [joined, h6, h7] using this

theorem scan_escape (t : Text) : ∀ f, ∃ f', Scans (D f) (escape t) (D f') ((joined f t).map .chr) := by
  induction t with
  | nil => exact fun f => ⟨f, rfl⟩
  | cons c cs ih =>
    intro f
    obtain ⟨f1, h1, h2⟩ := joined_cons f c cs
    obtain ⟨f2, h3⟩ := ih f1
    refine ⟨f2, ?_⟩
    rw [h1, List.map_append]
    exact (h2 0 .data rfl rfl).append h3

theorem scan_escapeChar_pre (f : Bool) (c : Char) : Scans ⟨.data, f, 1⟩ (escapeChar c) ⟨.data, false, 1⟩ [.chr c] := by
  by_cases h1 : c = '<'
  · subst h1; cases f <;> decide +kernel
  by_cases h2 : c = '>'
  · subst h2; cases f <;> decide +kernel
  by_cases h3 : c = '&'
  · subst h3; cases f <;> decide +kernel
  by_cases h4 : c = '"'
  · subst h4; cases f <;> decide +kernel
  by_cases h5 : c = '\''
  · subst h5; cases f <;> decide +kernel
  have e : escapeChar c = [c] := by simp [escapeChar, h1, h2, h3, h4, h5]
  rw [e]
  refine (Scans.cons (s1 := ⟨.data, false, 1⟩) (e1 := [.chr c]) ?_ (Scans.nil _) : Scans _ [c] _ _)
  simp [Reader.step, h1, h3]

theorem scan_escape_pre (t : Text) : ∀ f, ∃ f', Scans ⟨.data, f, 1⟩ (escape t) ⟨.data, f', 1⟩ (t.map .chr) := by
  induction t with
  | nil => exact fun f => ⟨f, rfl⟩
  | cons c cs ih =>
    intro f
    obtain ⟨f2, h3⟩ := ih false
    exact ⟨f2, (scan_escapeChar_pre f c).append h3⟩

theorem scan_escapeChar_value (n : Text) (as : Attrs) (x v : Text) (f : Bool) (p : Nat) (c : Char) :
    Scans ⟨.value n as x v, f, p⟩ (escapeChar c) ⟨.value n as x (v ++ [c]), f, p⟩ [] := by
  by_cases h1 : c = '<'
  · subst h1; rfl
  by_cases h2 : c = '>'
  · subst h2; rfl
  by_cases h3 : c = '&'
  · subst h3; rfl
  by_cases h4 : c = '"'
  · subst h4; rfl
  by_cases h5 : c = '\''
  · subst h5; rfl
  have e : escapeChar c = [c] := by simp [escapeChar, h1, h2, h3, h4, h5]
  rw [e]
  refine (Scans.cons (s1 := ⟨.value n as x (v ++ [c]), f, p⟩) (e1 := []) ?_ (Scans.nil _) : Scans _ [c] _ _)
  simp [Reader.step, h4, h3]

theorem scan_escape_value (n : Text) (as : Attrs) (x : Text) (f : Bool) (p : Nat) (t : Text) : ∀ v,
    Scans ⟨.value n as x v, f, p⟩ (escape t) ⟨.value n as x (v ++ t), f, p⟩ [] := by
  induction t with
  | nil => exact fun v => by simpa [escape] using Scans.nil _
  | cons c cs ih =>
    intro v
    have := (scan_escapeChar_value n as x v f p c).append (ih (v ++ [c]))
    simpa [escape] using this

/-! ### Events of documents -/

mutual
/-- The events of a node. -/
def flat : Node → List Event
  | .decl t => [.decl t]
  | .chr c => [.chr c]
  | .el n as kids => if isVoid n then [.start n as] else .start n as :: (flats kids ++ [.stop n])
/-- Of all nodes. -/
def flats : List Node → List Event
  | [] => []
  | x :: xs => flat x ++ flats xs
end

mutual
/-- Elements that have no content have none. -/
def Sound : Node → Prop
  | .decl _ => True
  | .chr _ => True
  | .el n _ kids => (isVoid n = true → kids = []) ∧ Sounds kids
/-- For all nodes. -/
def Sounds : List Node → Prop
  | [] => True
  | x :: xs => Sound x ∧ Sounds xs
end

theorem flats_append (a b : List Node) : flats (a ++ b) = flats a ++ flats b := by
  induction a with
  | nil => rfl
  | cons x xs ih => simp [flats, ih]

theorem sounds_append (a b : List Node) : Sounds (a ++ b) ↔ Sounds a ∧ Sounds b := by
  induction a with
  | nil => simp [Sounds]
  | cons x xs ih => simp [Sounds, ih, and_assoc]

theorem flats_chr (t : Text) : flats (t.map .chr) = t.map .chr := by
  induction t with
  | nil => rfl
  | cons c cs ih => simp [flats, flat, ih]

theorem sounds_chr (t : Text) : Sounds (t.map .chr) := by
  induction t with
  | nil => trivial
  | cons c cs ih => exact ⟨trivial, ih⟩

mutual
theorem build_flat : ∀ (x : Node) (st : List (Text × Attrs × List Node)) (acc : List Node) (es : List Event), Sound x →
    build st acc (flat x ++ es) = build st (acc ++ [x]) es
  | .decl t, st, acc, es, _ => by simp [flat]; cases st <;> simp [build]
  | .chr c, st, acc, es, _ => by simp [flat]; cases st <;> simp [build]
  | .el n as kids, st, acc, es, h => by
    by_cases hv : isVoid n = true
    · have hk := h.1 hv
      subst hk
      simp only [flat, if_pos hv, List.singleton_append]
      cases st <;> simp [build, hv]
    · have := build_flats kids ((n, as, acc) :: st) [] (.stop n :: es) h.2
      simp only [flat, if_neg hv, List.cons_append, List.append_assoc, List.nil_append]
      have e : build st acc (.start n as :: (flats kids ++ (.stop n :: es))) =
          build ((n, as, acc) :: st) [] (flats kids ++ (.stop n :: es)) := by
        cases st <;> simp [build, hv]
      rw [e, this]
      simp [build]
theorem build_flats : ∀ (xs : List Node) (st : List (Text × Attrs × List Node)) (acc : List Node) (es : List Event), Sounds xs →
    build st acc (flats xs ++ es) = build st (acc ++ xs) es
  | [], st, acc, es, _ => by simp [flats]
  | x :: xs, st, acc, es, h => by
    simp only [flats, List.append_assoc]
    rw [build_flat x st acc _ h.1, build_flats xs st _ es h.2]
    simp
end

theorem build_flats_nil (xs : List Node) (h : Sounds xs) : build [] [] (flats xs) = some xs := by
  have := build_flats xs [] [] [] h
  simpa [build] using this

/-- What has been read when `st` is open. -/
def opened : List (Text × Attrs × List Node) → List Node → List Event
  | [], acc => flats acc
  | (n, as, before) :: st, acc => opened st before ++ .start n as :: flats acc

/-- All that is open is sound. -/
def OpenSound : List (Text × Attrs × List Node) → Prop
  | [] => True
  | (n, _, before) :: st => isVoid n = false ∧ Sounds before ∧ OpenSound st

theorem build_inv (es : List Event) : ∀ st acc r, build st acc es = some r → OpenSound st → Sounds acc →
    opened st acc ++ es = flats r ∧ Sounds r := by
  induction es with
  | nil =>
    intro st acc r h _ hs
    cases st with
    | nil => simp only [build, Option.some.injEq] at h; subst h; exact ⟨by simp [opened], hs⟩
    | cons a st => simp [build] at h
  | cons e es ih =>
    intro st acc r h ho hs
    cases e with
    | decl t =>
      have h' : build st (acc ++ [.decl t]) es = some r := by cases st <;> simpa [build] using h
      obtain ⟨h1, h2⟩ := ih st _ r h' ho (by simp [sounds_append, hs, Sounds, Sound])
      refine ⟨?_, h2⟩
      rw [← h1]
      cases st <;> simp [opened, flats_append, flats, flat]
    | chr c =>
      have h' : build st (acc ++ [.chr c]) es = some r := by cases st <;> simpa [build] using h
      obtain ⟨h1, h2⟩ := ih st _ r h' ho (by simp [sounds_append, hs, Sounds, Sound])
      refine ⟨?_, h2⟩
      rw [← h1]
      cases st <;> simp [opened, flats_append, flats, flat]
    | start n as =>
      by_cases hv : isVoid n = true
      · have h' : build st (acc ++ [.el n as []]) es = some r := by cases st <;> simpa [build, hv] using h
        obtain ⟨h1, h2⟩ := ih st _ r h' ho (by simp [sounds_append, hs, Sounds, Sound])
        refine ⟨?_, h2⟩
        rw [← h1]
        cases st <;> simp [opened, flats_append, flats, flat, hv]
      · have h' : build ((n, as, acc) :: st) [] es = some r := by cases st <;> simpa [build, hv] using h
        obtain ⟨h1, h2⟩ := ih _ _ r h' ⟨by simpa using hv, hs, ho⟩ trivial
        refine ⟨?_, h2⟩
        rw [← h1]
        simp [opened, flats]
    | stop n =>
      cases st with
      | nil => simp [build] at h
      | cons a st =>
        obtain ⟨m, as, before⟩ := a
        simp only [build] at h
        by_cases hm : m = n
        · rw [if_pos hm] at h
          subst hm
          obtain ⟨h1, h2⟩ := ih st _ r h ho.2.2 (by simp [sounds_append, ho.2.1, Sounds, Sound, hs, ho.1])
          refine ⟨?_, h2⟩
          rw [← h1]
          have hv := ho.1
          cases st <;> simp [opened, flats_append, flats, flat, hv]
        · rw [if_neg hm] at h; cases h

/-! ### Converted Markdown -/

/-- How many `pre` are open after the events. -/
def preAfter : Nat → List Event → Nat
  | p, [] => p
  | p, .start n _ :: es => preAfter (if isPre n then p + 1 else p) es
  | p, .stop n :: es => preAfter (if isPre n then p - 1 else p) es
  | p, _ :: es => preAfter p es

theorem preAfter_append (a b : List Event) : ∀ p, preAfter p (a ++ b) = preAfter (preAfter p a) b := by
  induction a with
  | nil => intro p; rfl
  | cons e es ih => intro p; cases e <;> simp [preAfter, ih]

theorem step_pre (s s' : Reader) (c : Char) (es : List Event) (h : s.step c = some (s', es)) : s'.pre = preAfter s.pre es := by
  obtain ⟨m, f, p⟩ := s
  cases m <;> simp only [Reader.step, Reader.started] at h <;>
    (repeat' (split at h)) <;>
    first
    | (cases h; done)
    | (injection h with h; injection h with h1 h2; subst h1; subst h2; simp [preAfter]; done)
    | (simp only [Option.map_eq_some_iff] at h; obtain ⟨x, _, hx⟩ := h; injection hx with h1 h2; subst h1; subst h2; simp [preAfter]; done)
    | (injection h with h; injection h with h1 h2; subst h1; subst h2; simp_all [preAfter]; done)

theorem scan_pre (t : Text) : ∀ (s s' : Reader) (es : List Event), Scans s t s' es → s'.pre = preAfter s.pre es := by
  induction t with
  | nil => intro s s' es h; injection h with h; injection h with h1 h2; subst h1; subst h2; rfl
  | cons c cs ih =>
    intro s s' es h
    unfold Scans at h
    simp only [Reader.scan] at h
    cases hs : s.step c with
    | none => rw [hs] at h; cases h
    | some r =>
      obtain ⟨s1, e1⟩ := r
      rw [hs] at h
      simp only [Option.map_eq_some_iff] at h
      obtain ⟨q, hq, hx⟩ := h
      injection hx with h1 h2
      subst h1; subst h2
      rw [preAfter_append, ← step_pre s s1 c e1 hs]
      exact ih s1 q.1 q.2 hq

mutual
theorem preAfter_flat : ∀ (x : Node) (p : Nat), Sound x → preAfter p (flat x) = p
  | .decl t, p, _ => rfl
  | .chr c, p, _ => rfl
  | .el n as kids, p, h => by
    by_cases hv : isVoid n = true
    · have : isPre n = false := by
        cases hp : isPre n with
        | false => rfl
        | true =>
          have : n = ['p', 'r', 'e'] := by simpa [isPre] using hp
          subst this
          exact absurd hv (by decide)
      simp [flat, hv, preAfter, this]
    · simp only [flat, if_neg hv, preAfter]
      rw [preAfter_append, preAfter_flats kids _ h.2]
      simp only [preAfter]
      by_cases hp : isPre n = true <;> simp [hp]
theorem preAfter_flats : ∀ (xs : List Node) (p : Nat), Sounds xs → preAfter p (flats xs) = p
  | [], p, _ => rfl
  | x :: xs, p, h => by
    simp only [flats]
    rw [preAfter_append, preAfter_flat x p h.1, preAfter_flats xs p h.2]
end

/-- A document that is read on its own is read the same inside of another one. -/
theorem scan_fragment (t : Text) (ns : List Node) (h : readHtml t = some ns)
    (hs : ∀ c r, t = c :: r → c ≠ ' ' ∧ c ≠ '\n') (f : Bool) :
    (∃ f', Scans (D f) t (D f') (flats ns)) ∧ Sounds ns := by
  unfold readHtml at h
  cases hr : Reader.init.scan t with
  | none => rw [hr] at h; cases h
  | some q =>
    obtain ⟨⟨m, f', p⟩, es⟩ := q
    rw [hr] at h
    cases m <;> try (cases h; done)
    simp only at h
    obtain ⟨h1, h2⟩ := build_inv es [] [] ns h trivial trivial
    simp only [opened, flats, List.nil_append] at h1
    subst h1
    have hp : p = 0 := by
      have := scan_pre t Reader.init _ _ hr
      simpa [Reader.init, preAfter_flats ns 0 h2] using this
    subst hp
    refine ⟨?_, h2⟩
    cases t with
    | nil => 
      injection hr with hr
      injection hr with _ h3
      exact ⟨f, by rw [← h3]; rfl⟩
    | cons c cs =>
      refine ⟨f', ?_⟩
      have hc := hs c cs rfl
      have : (D f).step c = Reader.init.step c := by
        simp [Reader.step, D, Reader.init, hc.1, hc.2]
      refine Eq.trans ?_ hr
      simp only [Reader.scan, this]

end Mabo.Doc
