import Verif.Spec.Logging
/-!
The invariant of logging to the file.
-/
namespace Mabo.Logging
open Mabo.Parse (Text)
open Mabo.Spec

theorem pieces_flatten (t : Nat) (r : Record) : (pieces t r).flatten = logLine t r := by
  unfold pieces logLine
  have h : ∀ ps : List (Text × Text), (ps.flatMap fun p => [[' '], p.1, ['='], p.2]).flatten =
      ps.flatMap fun p => [' '] ++ p.1 ++ ['='] ++ p.2 := by
    intro ps
    induction ps with
    | nil => rfl
    | cons p ps ih =>
      rw [List.flatMap_cons, List.flatMap_cons, List.flatten_append, ih]
      simp
  rw [List.flatten_append, List.flatten_append, h]
  simp

/-- What a thread has begun to log and is not in the file yet. -/
def pending : Phase → List Record
  | .wants r => [r]
  | _ => []

/-- The invariant, for threads of one process. -/
structure Inv (proc : Nat → Nat) (faulty : Bool) (prog : Nat → List Record) (old : Text) (es : List Logged) (s : State) : Prop where
  text : s.file = logText old es
  firsts : ∀ e ∈ es, e.text <+: logLine e.time e.record
  holder : ∀ i r left, s.phase i = .file r left → s.lock (proc i) = some i
  free : s.lock (proc 0) = none → faulty = false → ∀ e ∈ es, Whole e
  held : ∀ i, s.lock (proc 0) = some i → ∃ r left es' e, s.phase i = .file r left ∧ es = es' ++ [e] ∧ e.thread = i ∧ e.record = r ∧
    e.text ++ left.flatten <+: logLine e.time e.record ∧
    (faulty = false → (∀ x ∈ es', Whole x) ∧ e.text ++ left.flatten = logLine e.time e.record)
  threads : ∀ i, byThread es i ++ pending (s.phase i) ++ (s.todo i).filter enabled = (prog i).filter enabled
  times : es.Pairwise fun a b => a.time ≤ b.time
  past : ∀ e ∈ es, e.time ≤ s.clock

theorem byThread_append (a b : List Logged) (i : Nat) : byThread (a ++ b) i = byThread a i ++ byThread b i := by
  simp only [byThread, List.filter_append, List.map_append]

/-- The text of the last message grows. -/
theorem logText_grow (old : Text) (es : List Logged) (e : Logged) (v : Text) :
    logText old (es ++ [e]) ++ v = logText old (es ++ [{ e with text := e.text ++ v }]) := by
  simp only [logText, List.flatMap_append, List.flatMap_cons, List.flatMap_nil, List.append_nil, List.append_assoc]

variable {proc : Nat → Nat} {faulty : Bool} {prog : Nat → List Record} {old : Text}

theorem inv_start (clock : Nat) : Inv proc faulty prog old [] (start prog clock old) where
  text := by simp [logText, start]
  firsts := nofun
  holder := nofun
  free := fun _ _ => nofun
  held := nofun
  threads := fun i => rfl
  times := .nil
  past := nofun

theorem goto_self (s : State) (i : Nat) (p : Phase) : (s.goto i p).phase i = p := if_pos rfl
theorem goto_other (s : State) {i j : Nat} (h : j ≠ i) (p : Phase) : (s.goto i p).phase j = s.phase j := if_neg h

/-- The holder of the lock writes: its message grows. -/
theorem inv_write (hone : ∀ i j, proc i = proc j) {es : List Logged} {s : State} (h : Inv proc faulty prog old es s) {i : Nat} {r : Record}
    {w v : Text} {ws left : List Text} (hp : s.phase i = .file r (w :: ws)) (hv : v ++ left.flatten <+: w ++ ws.flatten)
    (hw : faulty = false → v ++ left.flatten = w ++ ws.flatten) :
    ∃ es', Inv proc faulty prog old es' { s.goto i (.file r left) with file := s.file ++ v } := by
  have hl := h.holder i r _ hp
  rw [hone i 0] at hl
  obtain ⟨r', left', es', e, hp', rfl, ht, hr, h1, h2⟩ := h.held i hl
  rw [hp] at hp'
  injection hp' with hr' hleft
  subst hr' hleft
  have grown : e.text ++ v ++ left.flatten <+: logLine e.time e.record := by
    rw [List.append_assoc]
    refine List.IsPrefix.trans ?_ h1
    rw [List.flatten_cons]
    exact (List.prefix_append_right_inj _).2 hv
  refine ⟨es' ++ [{ e with text := e.text ++ v }], ?_, ?_, ?_, ?_, ?_, ?_, ?_, ?_⟩
  · show s.file ++ v = _
    rw [h.text, logText_grow]
  · intro x hx
    rcases List.mem_append.1 hx with hx | hx
    · exact h.firsts x (List.mem_append_left _ hx)
    · rw [List.mem_singleton.1 hx]
      exact List.IsPrefix.trans (List.prefix_append ..) grown
  · intro j r' l' hj
    by_cases hji : j = i
    · subst hji; exact h.holder j r _ hp
    · exact h.holder j r' l' ((goto_other s hji _).symm.trans hj)
  · intro hn
    exact absurd (hl.symm.trans hn) nofun
  · intro j hj
    have : j = i := by
      have := hl.symm.trans hj
      injection this with this
      exact this.symm
    subst this
    refine ⟨r, left, es', _, if_pos rfl, rfl, ht, hr, grown, fun hf => ⟨(h2 hf).1, ?_⟩⟩
    show e.text ++ v ++ left.flatten = _
    rw [List.append_assoc, hw hf]
    exact (h2 hf).2
  · intro j
    have hb : byThread (es' ++ [{ e with text := e.text ++ v }]) j = byThread (es' ++ [e]) j := by
      rw [byThread_append, byThread_append]
      congr 1
      simp only [byThread, List.filter_cons, List.filter_nil]
      split <;> rfl
    rw [hb, ← h.threads j]
    congr 2
    by_cases hji : j = i
    · subst hji; rw [hp]; show pending ((s.goto j _).phase j) = _; rw [goto_self]; rfl
    · exact congrArg pending (goto_other s hji _)
  · have := h.times
    rw [List.pairwise_append] at this ⊢
    refine ⟨this.1, List.pairwise_singleton .., fun a ha b hb => ?_⟩
    rw [List.mem_singleton.1 hb]
    exact this.2.2 a ha e (List.mem_singleton.2 rfl)
  · intro x hx
    rcases List.mem_append.1 hx with hx | hx
    · exact h.past x (List.mem_append_left _ hx)
    · rw [List.mem_singleton.1 hx]
      exact h.past e (List.mem_append_right _ (List.mem_singleton.2 rfl))

/-- A step that changes neither the file nor the lock, nor the phase of the holder. -/
theorem inv_quiet {es : List Logged} {s t : State} (h : Inv proc faulty prog old es s) (hfile : t.file = s.file)
    (hlock : t.lock = s.lock) (hclock : s.clock ≤ t.clock)
    (hph : ∀ i r left, t.phase i = .file r left ↔ s.phase i = .file r left)
    (hth : ∀ i, pending (t.phase i) ++ (t.todo i).filter enabled = pending (s.phase i) ++ (s.todo i).filter enabled) :
    Inv proc faulty prog old es t where
  text := hfile.trans h.text
  firsts := h.firsts
  holder := fun i r left hp => by rw [hlock]; exact h.holder i r left ((hph i r left).1 hp)
  free := by rw [hlock]; exact h.free
  held := fun i hi => by
    rw [hlock] at hi
    obtain ⟨r, left, es', e, h1, h2⟩ := h.held i hi
    exact ⟨r, left, es', e, (hph i r left).2 h1, h2⟩
  threads := fun i => by rw [List.append_assoc, hth, ← List.append_assoc]; exact h.threads i
  times := h.times
  past := fun e he => Nat.le_trans (h.past e he) hclock

theorem inv_step (hone : ∀ i j, proc i = proc j) {es : List Logged} {s t : State} (h : Inv proc faulty prog old es s)
    (hs : Step proc faulty s t) : ∃ es', Inv proc faulty prog old es' t := by
  cases hs with
  | tick => exact ⟨es, inv_quiet h rfl rfl (Nat.le_succ _) (fun _ _ _ => Iff.rfl) fun _ => rfl⟩
  | @skip i r rest hi htodo hen =>
    refine ⟨es, inv_quiet h rfl rfl (Nat.le_refl _) (fun _ _ _ => Iff.rfl) fun j => ?_⟩
    congr 1
    simp only [State.drop]
    split
    · next e => rw [e, htodo, List.filter_cons, if_neg (by rw [hen]; decide)]
    · rfl
  | @start i r rest hi htodo hen =>
    refine ⟨es, inv_quiet h rfl rfl (Nat.le_refl _) (fun j r' left => ?_) fun j => ?_⟩
    · by_cases hji : j = i
      · subst hji
        rw [goto_self, hi]
        exact ⟨nofun, nofun⟩
      · rw [goto_other _ hji]; exact Iff.rfl
    · by_cases hji : j = i
      · subst hji
        rw [goto_self, hi]
        simp only [pending, State.goto, State.drop, if_true, htodo, List.filter_cons, hen, List.nil_append, List.cons_append]
      · rw [goto_other _ hji]
        simp only [State.goto, State.drop, if_neg hji]
  | @lock i r hp hl =>
    have hl0 : s.lock (proc 0) = none := by rw [← hone i 0]; exact hl
    have nofile : ∀ j r' left, s.phase j ≠ .file r' left := by
      intro j r' left hj
      have := h.holder j r' left hj
      rw [hone j i, hl] at this
      cases this
    refine ⟨es ++ [⟨i, s.clock, r, []⟩], ?_, ?_, ?_, ?_, ?_, ?_, ?_, ?_⟩
    · show s.file = _
      rw [h.text]
      simp [logText]
    · intro e he
      rcases List.mem_append.1 he with he | he
      · exact h.firsts e he
      · rw [List.mem_singleton.1 he]; exact List.nil_prefix
    · intro j r' left hj
      by_cases hji : j = i
      · subst hji; exact if_pos rfl
      · rw [goto_other _ hji] at hj; exact absurd hj (nofile j r' left)
    · intro hn
      have : (s.setLock (proc i) (some i)).lock (proc 0) = some i := by rw [hone 0 i]; exact if_pos rfl
      exact absurd (this.symm.trans hn) nofun
    · intro j hj
      have : (s.setLock (proc i) (some i)).lock (proc 0) = some i := by rw [hone 0 i]; exact if_pos rfl
      have hji : i = j := by
        have := this.symm.trans hj
        injection this
      subst hji
      refine ⟨r, pieces s.clock r, es, ⟨i, s.clock, r, []⟩, goto_self .., rfl, rfl, rfl, ?_, fun hf => ⟨h.free hl0 hf, ?_⟩⟩
      · rw [List.nil_append, pieces_flatten]; exact List.prefix_rfl
      · rw [List.nil_append, pieces_flatten]
    · intro j
      rw [byThread_append, ← h.threads j]
      by_cases hji : j = i
      · subst hji
        rw [goto_self, hp]
        simp [byThread, pending]
        rfl
      · rw [goto_other _ hji]
        have hne : (i == j) = false := by simpa using fun e => hji e.symm
        simp only [byThread, List.filter_cons, hne, List.filter_nil, Bool.false_eq_true, if_false, List.map_nil, List.append_nil]
        rfl
    · rw [List.pairwise_append]
      refine ⟨h.times, List.pairwise_singleton .., fun a ha b hb => ?_⟩
      rw [List.mem_singleton.1 hb]
      exact h.past a ha
    · intro e he
      rcases List.mem_append.1 he with he | he
      · exact h.past e he
      · rw [List.mem_singleton.1 he]; exact Nat.le_refl _
  | @write i r w ws hp => exact inv_write hone h hp List.prefix_rfl fun _ => rfl
  | @fail i r w v ws hf hp hv =>
    refine inv_write hone h hp ?_ fun h => absurd (hf.symm.trans h) nofun
    rw [List.flatten_nil, List.append_nil]
    exact List.IsPrefix.trans hv (List.prefix_append ..)
  | @unlock i r hp =>
    have hl := h.holder i r _ hp
    have hl0 : s.lock (proc 0) = some i := by rw [← hone i 0]; exact hl
    obtain ⟨r', left', es', e, hp', he, ht, hr, h1, h2⟩ := h.held i hl0
    rw [hp] at hp'
    injection hp' with hr' hleft
    subst hr' hleft
    have free : (s.setLock (proc i) none).lock (proc 0) = none := by rw [hone 0 i]; exact if_pos rfl
    refine ⟨es, h.text, h.firsts, fun j r' left hj => ?_, fun _ hf x hx => ?_, fun j hj => ?_, fun j => ?_, h.times, h.past⟩
    · by_cases hji : j = i
      · subst hji; rw [goto_self] at hj; cases hj
      · rw [goto_other _ hji] at hj
        have := h.holder j r' left hj
        rw [hone j i, hl] at this
        injection this with this
        exact absurd this.symm hji
    · rw [he] at hx
      rcases List.mem_append.1 hx with hx | hx
      · exact (h2 hf).1 x hx
      · rw [List.mem_singleton.1 hx]
        have := (h2 hf).2
        rw [List.flatten_nil, List.append_nil] at this
        exact this
    · exact absurd (free.symm.trans hj) nofun
    · rw [← h.threads j]
      by_cases hji : j = i
      · subst hji; rw [goto_self, hp]; rfl
      · rw [goto_other _ hji]; rfl
  | @print i w ws hp =>
    refine ⟨es, inv_quiet h rfl rfl (Nat.le_refl _) (fun j r' left => ?_) fun j => ?_⟩
    · by_cases hji : j = i
      · subst hji
        rw [hp]
        exact ⟨fun h => (nomatch (goto_self s j (.stderr ws)).symm.trans h), nofun⟩
      · show (s.goto i _).phase j = _ ↔ _
        rw [goto_other _ hji]
    · by_cases hji : j = i
      · subst hji
        show pending ((s.goto j _).phase j) ++ _ = _
        rw [goto_self, hp]; rfl
      · show pending ((s.goto i _).phase j) ++ _ = _
        rw [goto_other _ hji]; rfl
  | @done i hp =>
    refine ⟨es, inv_quiet h rfl rfl (Nat.le_refl _) (fun j r' left => ?_) fun j => ?_⟩
    · by_cases hji : j = i
      · subst hji
        rw [hp, goto_self]
        exact ⟨nofun, nofun⟩
      · rw [goto_other _ hji]
    · by_cases hji : j = i
      · subst hji
        rw [goto_self, hp]; rfl
      · rw [goto_other _ hji]; rfl

theorem inv_steps (hone : ∀ i j, proc i = proc j) {clock : Nat} {s : State} (hs : Steps proc faulty (start prog clock old) s) :
    ∃ es, Inv proc faulty prog old es s := by
  generalize hst : start prog clock old = s0 at hs
  induction hs with
  | refl => subst hst; exact ⟨[], inv_start clock⟩
  | step _ h ih => obtain ⟨es, hi⟩ := ih; exact inv_step hone hi h

/-! ### Runs -/

theorem Steps.trans {s t u : State} (h1 : Steps proc faulty s t) (h2 : Steps proc faulty t u) : Steps proc faulty s u := by
  induction h2 with
  | refl => exact h1
  | step _ h ih => exact .step ih h

theorem goto_goto (s : State) (i : Nat) (p q : Phase) : (s.goto i p).goto i q = s.goto i q := by
  simp only [State.goto]
  congr 1
  funext j
  split <;> rfl

theorem goto_same {s : State} {i : Nat} {p : Phase} (h : s.phase i = p) : s.goto i p = s := by
  simp only [State.goto]
  have : (fun j => if j = i then p else s.phase j) = s.phase := by
    funext j
    split
    · next e => rw [e, h]
    · rfl
  rw [this]

/-- The file gets more text. -/
def State.addFile (s : State) (t : Text) : State := { s with file := s.file ++ t }

/-- Standard error gets more text. -/
def State.addErr (s : State) (t : Text) : State := { s with stderr := s.stderr ++ t }

theorem steps_write {i : Nat} {r : Record} : ∀ (ws : List Text) (s : State), s.phase i = .file r ws →
    Steps proc faulty s ((s.goto i (.file r [])).addFile ws.flatten)
  | [], s, h => by
    rw [goto_same h, List.flatten_nil, State.addFile, List.append_nil]
    exact .refl
  | w :: ws, s, h => by
    have h1 : Step proc faulty s ((s.goto i (.file r ws)).addFile w) := .write h
    refine Steps.trans (.step .refl h1) ?_
    have := steps_write ws ((s.goto i (.file r ws)).addFile w) (goto_self s i _)
    have e : ((((s.goto i (.file r ws)).addFile w).goto i (.file r [])).addFile ws.flatten) =
        (s.goto i (.file r [])).addFile (w :: ws).flatten := by
      have : ((s.goto i (.file r ws)).addFile w).goto i (.file r []) = ((s.goto i (.file r ws)).goto i (.file r [])).addFile w := rfl
      rw [this, goto_goto]
      simp only [State.addFile, List.flatten_cons, List.append_assoc]
    rw [← e]
    exact this

theorem steps_print {i : Nat} : ∀ (ws : List Text) (s : State), s.phase i = .stderr ws →
    Steps proc faulty s ((s.goto i .idle).addErr ws.flatten)
  | [], s, h => by
    rw [List.flatten_nil, State.addErr, List.append_nil]
    exact .step .refl (.done h)
  | w :: ws, s, h => by
    have h1 : Step proc faulty s ((s.goto i (.stderr ws)).addErr w) := .print h
    refine Steps.trans (.step .refl h1) ?_
    have := steps_print ws ((s.goto i (.stderr ws)).addErr w) (goto_self s i _)
    have e : ((((s.goto i (.stderr ws)).addErr w).goto i .idle).addErr ws.flatten) =
        (s.goto i .idle).addErr (w :: ws).flatten := by
      have : ((s.goto i (.stderr ws)).addErr w).goto i .idle = ((s.goto i (.stderr ws)).goto i .idle).addErr w := rfl
      rw [this, goto_goto]
      simp only [State.addErr, List.flatten_cons, List.append_assoc]
    rw [← e]
    exact this

/-- A thread writes its message to the file while the others wait. -/
theorem steps_file {i : Nat} {r : Record} {s : State} {ws : List Text} (h : s.phase i = .file r ws) :
    Steps proc faulty s (((s.setLock (proc i) none).goto i (.stderr (pieces s.clock r))).addFile ws.flatten) := by
  refine Steps.trans (steps_write ws s h) ?_
  have h1 : Step proc faulty ((s.goto i (.file r [])).addFile ws.flatten) _ := .unlock (i := i) (r := r) (goto_self s i _)
  refine .step .refl ?_
  have e : ((((s.goto i (.file r [])).addFile ws.flatten).setLock (proc i) none).goto i
      (.stderr (pieces ((s.goto i (.file r [])).addFile ws.flatten).clock r))) =
      (((s.setLock (proc i) none).goto i (.file r [])).goto i (.stderr (pieces s.clock r))).addFile ws.flatten := rfl
  rw [e, goto_goto] at h1
  exact h1

theorem steps_to_stderr {i : Nat} {r : Record} {rest : List Record} {s : State} (hi : s.phase i = .idle) (ht : s.todo i = r :: rest)
    (he : enabled r = true) (hl : s.lock (proc i) = none) :
    Steps proc faulty s ((((s.drop i rest).goto i (.stderr (pieces s.clock r))).addFile (logLine s.clock r))) := by
  have h1 : Step proc faulty s _ := .start hi ht he
  have h2 : Step proc faulty ((s.drop i rest).goto i (.wants r)) _ := .lock (i := i) (r := r) (goto_self ..) hl
  refine Steps.trans (.step (.step .refl h1) h2) ?_
  have h3 := steps_file (proc := proc) (faulty := faulty) (i := i) (r := r) (ws := pieces s.clock r)
    (s := ((((s.drop i rest).goto i (.wants r)).setLock (proc i) (some i)).goto i
    (.file r (pieces s.clock r)))) (goto_self ..)
  have e : ((((((s.drop i rest).goto i (.wants r)).setLock (proc i) (some i)).goto i (.file r (pieces s.clock r))).setLock (proc i)
      none).goto i (.stderr (pieces s.clock r))) = (s.drop i rest).goto i (.stderr (pieces s.clock r)) := by
    have e1 : (((((s.drop i rest).goto i (.wants r)).setLock (proc i) (some i)).goto i (.file r (pieces s.clock r))).setLock (proc i)
      none) = ((((s.drop i rest).setLock (proc i) (some i)).setLock (proc i) none).goto i (.wants r)).goto i (.file r (pieces s.clock r)) := rfl
    have e2 : ((s.drop i rest).setLock (proc i) (some i)).setLock (proc i) none = s.drop i rest := by
      simp only [State.setLock, State.drop]
      have : (fun q => if q = proc i then (none : Option Nat) else if q = proc i then some i else s.lock q) = s.lock := by
        funext q
        by_cases hq : q = proc i
        · rw [if_pos hq, hq, hl]
        · rw [if_neg hq, if_neg hq]
      rw [this]
    rw [e1, e2, goto_goto, goto_goto]
  rw [← pieces_flatten]
  have e3 : ((((((s.drop i rest).goto i (.wants r)).setLock (proc i) (some i)).goto i (.file r (pieces s.clock r))).setLock (proc i)
      none).goto i (.stderr (pieces s.clock r))).addFile (pieces s.clock r).flatten =
      ((s.drop i rest).goto i (.stderr (pieces s.clock r))).addFile (pieces s.clock r).flatten := by rw [e]
  rw [← e3]
  exact h3

/-- A thread logs a record while the others wait. -/
theorem steps_log {i : Nat} {r : Record} {rest : List Record} {s : State} (hi : s.phase i = .idle) (ht : s.todo i = r :: rest)
    (he : enabled r = true) (hl : s.lock (proc i) = none) :
    Steps proc faulty s (((s.drop i rest).addFile (logLine s.clock r)).addErr (logLine s.clock r)) := by
  refine Steps.trans (steps_to_stderr hi ht he hl) ?_
  have h := steps_print (proc := proc) (faulty := faulty) (i := i) (pieces s.clock r)
    (((s.drop i rest).goto i (.stderr (pieces s.clock r))).addFile (logLine s.clock r)) (goto_self ..)
  have e : ((((s.drop i rest).goto i (.stderr (pieces s.clock r))).addFile (logLine s.clock r)).goto i .idle) =
      (((s.drop i rest).goto i (.stderr (pieces s.clock r))).goto i .idle).addFile (logLine s.clock r) := rfl
  rw [e, goto_goto, goto_same (s := s.drop i rest) hi, pieces_flatten] at h
  exact h

/-- A thread logs all its records. -/
theorem steps_all {i : Nat} : ∀ (rs : List Record) (s : State), s.phase i = .idle → s.todo i = rs → s.lock (proc i) = none →
    ∃ t, Steps proc faulty s t ∧ t.phase = s.phase ∧ t.lock = s.lock ∧ t.todo i = [] ∧ (∀ j, j ≠ i → t.todo j = s.todo j) ∧
      t.clock = s.clock ∧ t.file = s.file ++ (rs.filter enabled).flatMap (logLine s.clock)
  | [], s, hi, ht, hl => ⟨s, .refl, rfl, rfl, ht, fun _ _ => rfl, rfl, by simp⟩
  | r :: rs, s, hi, ht, hl => by
    cases he : enabled r with
    | false =>
      obtain ⟨t, h1, h2, h3, h4, h5, h6, h7⟩ := steps_all rs (s.drop i rs) hi (if_pos rfl) hl
      refine ⟨t, Steps.trans (.step .refl (.skip hi ht he)) h1, h2, h3, h4, fun j hj => (h5 j hj).trans (if_neg hj), h6, ?_⟩
      rw [h7, List.filter_cons, if_neg (by rw [he]; decide)]; rfl
    | true =>
      obtain ⟨t, h1, h2, h3, h4, h5, h6, h7⟩ := steps_all rs (((s.drop i rs).addFile (logLine s.clock r)).addErr (logLine s.clock r))
        hi (if_pos rfl) hl
      refine ⟨t, Steps.trans (steps_log hi ht he hl) h1, h2, h3, h4, fun j hj => (h5 j hj).trans (if_neg hj), h6, ?_⟩
      rw [h7, List.filter_cons, if_pos he, List.flatMap_cons, ← List.append_assoc]; rfl

end Mabo.Logging
