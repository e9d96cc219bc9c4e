import Verif.Lsp.LoggingLemmas
/-!
C80: what the language server logs, with any number of threads.
-/
namespace Mabo.Props
open Mabo.Parse (Text)
open Mabo.Spec
open Mabo.Logging

/-- The filter of the logger is exactly what is wanted. -/
theorem C80_filter (r : Record) : enabled r = true ↔ Wanted r := by
  have hall : ∀ l : Level, decide (l.rank ≤ Level.trace.rank) = true := by intro l; cases l <;> decide
  simp only [enabled, Wanted, Bool.or_eq_true, Bool.and_eq_true, hall, and_true, List.isPrefixOf_iff_prefix]
  cases r.level <;> simp [Level.rank, or_assoc]

theorem filter_wanted (rs : List Record) : rs.filter enabled = wanted rs := by
  unfold wanted
  congr 1
  funext r
  exact Bool.eq_iff_iff.2 ((C80_filter r).trans (decide_eq_true_iff (p := Wanted r)).symm)

theorem allButLast_of_all {es : List Logged} (h : ∀ e ∈ es, Whole e) : AllButLast es := by
  intro a e b he _
  exact h e (he ▸ List.mem_append_right _ (List.mem_cons_self ..))

theorem allButLast_snoc {es : List Logged} {l : Logged} (h : ∀ e ∈ es, Whole e) : AllButLast (es ++ [l]) := by
  intro a e b he hb
  refine h e ?_
  have hd := congrArg List.dropLast he
  rw [List.dropLast_concat, List.dropLast_append_of_ne_nil (List.cons_ne_nil _ _), List.dropLast_cons_of_ne_nil hb] at hd
  rw [hd]
  exact List.mem_append_right _ (List.mem_cons_self ..)

/-- Whatever the threads of one server do: the file is what it was, then one message after the other, never one inside another,
each with (as long as it is not finished, or writing fails: the first characters of) its line; what a thread logs is there in its
order, the times do not go back, and in the end everything wanted is there. -/
theorem C80_log_partial {proc : Nat → Nat} {faulty : Bool} {prog : Nat → List Record} {clock : Nat} {old : Text} {s : State}
    (hone : ∀ i j, proc i = proc j) (hs : Steps proc faulty (start prog clock old) s) :
    ∃ es : List Logged, s.file = logText old es ∧ (∀ e ∈ es, e.text <+: logLine e.time e.record) ∧
      (∀ e ∈ es, Wanted e.record) ∧
      (∀ i, byThread es i <+: wanted (prog i)) ∧
      (es.Pairwise fun a b => a.time ≤ b.time) ∧ (∀ e ∈ es, e.time ≤ s.clock) ∧
      (faulty = false → AllButLast es) ∧
      (Finished s → (∀ i, byThread es i = wanted (prog i)) ∧ (faulty = false → ∀ e ∈ es, Whole e)) := by
  obtain ⟨es, h⟩ := inv_steps hone hs
  have hpre : ∀ i, byThread es i <+: wanted (prog i) := fun i => by
    rw [← filter_wanted, ← h.threads i, List.append_assoc]; exact List.prefix_append ..
  refine ⟨es, h.text, h.firsts, ?_, hpre, h.times, h.past, ?_, ?_⟩
  · intro e he
    have : e.record ∈ byThread es e.thread := List.mem_map.2 ⟨e, List.mem_filter.2 ⟨he, by simp⟩, rfl⟩
    have := (hpre e.thread).subset this
    exact of_decide_eq_true (List.mem_filter.1 this).2
  · intro hf
    cases hl : s.lock (proc 0) with
    | none => exact allButLast_of_all (h.free hl hf)
    | some i =>
      obtain ⟨r, left, es', e, _, rfl, _, _, _, h2⟩ := h.held i hl
      exact allButLast_snoc (h2 hf).1
  · intro hfin
    constructor
    · intro i
      rw [← filter_wanted, ← h.threads i, (hfin i).1, (hfin i).2]
      simp [pending]
    · intro hf
      cases hl : s.lock (proc 0) with
      | none => exact h.free hl hf
      | some i =>
        obtain ⟨r, left, _, _, hp, _⟩ := h.held i hl
        rw [(hfin i).1] at hp
        cases hp

/-- The logger never blocks the server for good: as long as a thread has something to log, some thread can go on, and it does not
need another one to fail or time to pass. -/
theorem C80_never_stuck {proc : Nat → Nat} {faulty : Bool} {prog : Nat → List Record} {clock : Nat} {old : Text} {s : State}
    (hone : ∀ i j, proc i = proc j) (hs : Steps proc faulty (start prog clock old) s) (hnot : ¬ Finished s) :
    ∃ t, Step proc false s t ∧ t.clock = s.clock := by
  obtain ⟨es, h⟩ := inv_steps hone hs
  have : ∃ i, ¬ (s.phase i = .idle ∧ s.todo i = []) := Classical.byContradiction fun hc =>
    hnot fun i => Classical.byContradiction fun hi => hc ⟨i, hi⟩
  obtain ⟨i, hi⟩ := this
  have hfile : ∀ j r left, s.phase j = .file r left → ∃ t, Step proc false s t ∧ t.clock = s.clock := by
    intro j r left hp
    cases left with
    | nil => exact ⟨_, .unlock hp, rfl⟩
    | cons w ws => exact ⟨_, .write hp, rfl⟩
  cases hp : s.phase i with
  | idle =>
    cases ht : s.todo i with
    | nil => exact absurd ⟨hp, ht⟩ hi
    | cons r rest =>
      cases he : enabled r with
      | true => exact ⟨_, .start hp ht he, rfl⟩
      | false => exact ⟨_, .skip hp ht he, rfl⟩
  | wants r =>
    cases hl : s.lock (proc i) with
    | none => exact ⟨_, .lock hp hl, rfl⟩
    | some j =>
      rw [hone i 0] at hl
      obtain ⟨r', left, _, _, hj, _⟩ := h.held j hl
      exact hfile j r' left hj
  | file r left => exact hfile i r left hp
  | stderr left =>
    cases left with
    | nil => exact ⟨_, .done hp, rfl⟩
    | cons w ws => exact ⟨_, .print hp, rfl⟩

/-! ### Lines -/

theorem cutLines_line (l : Text) (h : '\n' ∉ l) (t : Text) :
    cutLines (l ++ '\n' :: t) = ((l ++ ['\n']) :: (cutLines t).1, (cutLines t).2) := by
  induction l with
  | nil => simp [cutLines]
  | cons c l ih =>
    have hc : c ≠ '\n' := fun e => h (e ▸ List.mem_cons_self ..)
    have := ih fun hm => h (List.mem_cons_of_mem _ hm)
    rw [List.cons_append, cutLines, if_neg hc, this]
    rfl

theorem digit_ne (n : Nat) : digit n ≠ '\n' ∧ digit n ≠ ':' := by
  have : ∀ k, k < 10 → digit k ≠ '\n' ∧ digit k ≠ ':' := by decide
  have h := this (n % 10) (Nat.mod_lt _ (by decide))
  have e : digit (n % 10) = digit n := by simp [digit]
  rwa [e] at h

theorem hms_no_break (t : Nat) : '\n' ∉ hms t := by
  simp only [hms, twoDigits, List.mem_append, List.mem_cons, List.not_mem_nil, or_false]
  have := fun n => (digit_ne n).1.symm
  simp [this]

theorem pad_no_break (l : Level) : '\n' ∉ pad l.text := by cases l <;> decide

/-- A record of one line is one line in the log. -/
theorem logLine_one {t : Nat} {r : Record} (h : OneLine r) : ∃ l, '\n' ∉ l ∧ logLine t r = l ++ ['\n'] := by
  refine ⟨_, ?_, rfl⟩
  simp only [List.mem_append, not_or]
  refine ⟨⟨⟨⟨⟨⟨⟨hms_no_break t, by decide⟩, pad_no_break _⟩, by decide⟩, h.1⟩, by decide⟩, h.2.1⟩, ?_⟩
  intro hm
  obtain ⟨p, hp, hm⟩ := List.mem_flatMap.1 hm
  have := h.2.2 p hp
  simp only [List.mem_append, or_assoc] at hm
  rcases hm with hm | hm | hm | hm
  · exact absurd hm (by decide)
  · exact this.1 hm
  · exact absurd hm (by decide)
  · exact this.2 hm

theorem cutLines_log (es : List Logged) (hw : ∀ e ∈ es, Whole e) (ho : ∀ e ∈ es, OneLine e.record) :
    cutLines (es.flatMap (·.text)) = (es.map fun e => logLine e.time e.record, []) := by
  induction es with
  | nil => rfl
  | cons e es ih =>
    have := ih (fun x hx => hw x (List.mem_cons_of_mem _ hx)) fun x hx => ho x (List.mem_cons_of_mem _ hx)
    obtain ⟨l, hl, hline⟩ := logLine_one (t := e.time) (ho e (List.mem_cons_self ..))
    have he : e.text = l ++ ['\n'] := (hw e (List.mem_cons_self ..)).trans hline
    rw [List.flatMap_cons, he, List.append_assoc, List.singleton_append, cutLines_line l hl, this, List.map_cons, hline]

theorem cutLines_append : ∀ (a b : Text), (cutLines a).2 = [] →
    cutLines (a ++ b) = ((cutLines a).1 ++ (cutLines b).1, (cutLines b).2)
  | [], b, _ => rfl
  | c :: a, b, h => by
    by_cases hc : c = '\n'
    · have h' : (cutLines a).2 = [] := by rw [cutLines, if_pos hc] at h; exact h
      rw [List.cons_append, cutLines, if_pos hc, cutLines_append a b h', cutLines, if_pos hc]
      rfl
    · cases ha : (cutLines a).1 with
      | nil =>
        rw [cutLines, if_neg hc, ha] at h
        cases h
      | cons l ls =>
        have h' : (cutLines a).2 = [] := by rw [cutLines, if_neg hc, ha] at h; exact h
        have := cutLines_append a b h'
        rw [ha] at this
        rw [List.cons_append, cutLines, if_neg hc, this, cutLines, if_neg hc, ha]
        rfl

/-- When everything is logged, no write failed and no record has a line break in it, the lines of the file are the earlier ones
and one for each wanted record, of each thread in its order. -/
theorem C80_lines_partial {proc : Nat → Nat} {prog : Nat → List Record} {clock : Nat} {old : Text} {s : State}
    (hone : ∀ i j, proc i = proc j) (hs : Steps proc false (start prog clock old) s) (hfin : Finished s)
    (holine : ∀ i, ∀ r ∈ prog i, Wanted r → OneLine r) (hold : (cutLines old).2 = []) :
    ∃ es : List Logged, cutLines s.file = ((cutLines old).1 ++ es.map fun e => logLine e.time e.record, []) ∧
      (∀ i, byThread es i = wanted (prog i)) ∧ (es.Pairwise fun a b => a.time ≤ b.time) := by
  obtain ⟨es, h1, _, h3, _, h6, _, _, h9⟩ := C80_log_partial hone hs
  obtain ⟨hall, hwhole⟩ := h9 hfin
  refine ⟨es, ?_, hall, h6⟩
  have hone' : ∀ e ∈ es, OneLine e.record := by
    intro e he
    have : e.record ∈ byThread es e.thread := List.mem_map.2 ⟨e, List.mem_filter.2 ⟨he, by simp⟩, rfl⟩
    rw [hall] at this
    exact holine e.thread e.record (List.mem_filter.1 this).1 (h3 e he)
  rw [h1, logText, cutLines_append _ _ hold, cutLines_log es (hwhole rfl) hone']

/-- The time of day and the level can be read back from a line. -/
theorem C80_readable {t u : Nat} {r q : Record} (h : logLine t r = logLine u q) : t % 86400 = u % 86400 ∧ r.level = q.level := by
  simp only [logLine, List.append_assoc] at h
  have hlen : ∀ n, (hms n).length = 8 := fun n => rfl
  have hplen : ∀ l : Level, (pad l.text).length = 5 := by intro l; cases l <;> rfl
  obtain ⟨h1, h2⟩ := List.append_inj h (by rw [hlen, hlen])
  have h3 := (List.append_inj h2 rfl).2
  have h4 := (List.append_inj h3 (by rw [hplen, hplen])).1
  refine ⟨?_, ?_⟩
  · have hd : ∀ m n, digit m = digit n → m % 10 = n % 10 := by
      intro m n he
      have : ∀ a, a < 10 → ∀ b, b < 10 → digit a = digit b → a = b := by decide
      refine this _ (Nat.mod_lt _ (by decide)) _ (Nat.mod_lt _ (by decide)) ?_
      simpa [digit] using he
    simp only [hms, twoDigits, List.cons_append, List.nil_append, List.cons.injEq, and_true, true_and] at h1
    obtain ⟨a, b, c, d, e, f⟩ := h1
    have a := hd _ _ a; have b := hd _ _ b; have c := hd _ _ c; have d := hd _ _ d; have e := hd _ _ e; have f := hd _ _ f
    omega
  · have : ∀ l l' : Level, pad l.text = pad l'.text → l = l' := by
      intro l l'; cases l <;> cases l' <;> first | (intro; rfl) | (intro h; exact absurd h (by decide))
    exact this _ _ h4

/-! ### What the logger does not promise -/

/-- No text that begins with two times in a row is a log of whole messages. -/
theorem not_log {t u : Nat} {x : Text} {es : List Logged} (hw : ∀ e ∈ es, Whole e) : hms t ++ (hms u ++ x) ≠ es.flatMap (·.text) := by
  intro h
  cases es with
  | nil => exact absurd (congrArg List.length h) (by simp [hms])
  | cons e es =>
    rw [List.flatMap_cons, hw e (List.mem_cons_self ..), logLine] at h
    simp only [List.append_assoc] at h
    have h2 := (List.append_inj h rfl).2
    simp only [hms, twoDigits, List.cons_append, List.nil_append, List.cons.injEq] at h2
    have : ∀ k, k < 10 → digit k ≠ ' ' := by decide
    refine this _ (Nat.mod_lt (u / 3600 % 24 / 10) (by decide : 10 > 0)) ?_
    have e : ∀ n, digit (n % 10) = digit n := fun n => by simp [digit]
    rw [e]
    exact h2.1

/-- Two threads with one record each. -/
def twoThreads (a b : Record) : Nat → List Record := fun i => if i = 0 then [a] else if i = 1 then [b] else []

/-- Standard error is not locked for the whole message: with two threads, whatever they log, one message can be inside the other. -/
theorem C80_fails_for_stderr (a b : Record) (ha : Wanted a) (hb : Wanted b) (clock : Nat) :
    ∃ s, Steps (fun _ => 0) false (start (twoThreads a b) clock []) s ∧ Finished s ∧
      ∀ es : List Logged, (∀ e ∈ es, Whole e) → s.stderr ≠ es.flatMap (·.text) := by
  let s0 := start (twoThreads a b) clock []
  let s1 := ((s0.drop 0 []).goto 0 (.stderr (pieces clock a))).addFile (logLine clock a)
  have h1 : Steps (fun _ => 0) false s0 s1 := steps_to_stderr (r := a) (rest := []) rfl rfl ((C80_filter a).2 ha) rfl
  let s2 := (s1.goto 0 (.stderr (pieces clock a).tail)).addErr (hms clock)
  have h2 : Steps (fun _ => 0) false s0 s2 := .step h1 (.print (i := 0) (s := s1) (w := hms clock) (ws := (pieces clock a).tail) rfl)
  have h3 := steps_log (proc := fun _ => 0) (faulty := false) (s := s2) (i := 1) (r := b) (rest := []) rfl rfl
    ((C80_filter b).2 hb) rfl
  let s3 := ((s2.drop 1 []).addFile (logLine clock b)).addErr (logLine clock b)
  have h4 := steps_print (proc := fun _ => 0) (faulty := false) (i := 0) (pieces clock a).tail s3 rfl
  refine ⟨_, Steps.trans (Steps.trans h2 h3) h4, ?_, fun es hw => ?_⟩
  · intro i
    show (if i = 0 then Phase.idle else if i = 0 then _ else if i = 0 then _ else Phase.idle) = Phase.idle ∧
      (if i = 1 then [] else if i = 0 then [] else if i = 0 then [a] else if i = 1 then [b] else []) = []
    by_cases h0 : i = 0 <;> by_cases h1 : i = 1 <;> simp [h0, h1]
  · have : ∀ x : Text, (([] ++ hms clock) ++ logLine clock b) ++ x ≠ es.flatMap (·.text) := fun x => by
      rw [List.nil_append, logLine]
      simp only [List.append_assoc]
      exact not_log hw
    exact this _

/-- The lock is one of the process: with two servers, whatever they log, one message can be inside the other in the file they share. -/
theorem C80_fails_for_processes (a b : Record) (ha : Wanted a) (hb : Wanted b) (clock : Nat) :
    ∃ s, Steps id false (start (twoThreads a b) clock []) s ∧ Finished s ∧
      ∀ es : List Logged, (∀ e ∈ es, Whole e) → s.file ≠ es.flatMap (·.text) := by
  let s0 := start (twoThreads a b) clock []
  let s1 := (s0.drop 0 []).goto 0 (.wants a)
  have h1 : Steps id false s0 s1 := .step .refl (.start (i := 0) rfl rfl ((C80_filter a).2 ha))
  let s2 := (s1.setLock 0 (some 0)).goto 0 (.file a (pieces clock a))
  have h2 : Steps id false s0 s2 := .step h1 (.lock (i := 0) (s := s1) rfl rfl)
  let s3 := (s2.goto 0 (.file a (pieces clock a).tail)).addFile (hms clock)
  have h3 : Steps id false s0 s3 := .step h2 (.write (i := 0) (s := s2) (w := hms clock) (ws := (pieces clock a).tail) rfl)
  have h4 := steps_log (proc := id) (faulty := false) (s := s3) (i := 1) (r := b) (rest := []) rfl rfl
    ((C80_filter b).2 hb) rfl
  let s4 := ((s3.drop 1 []).addFile (logLine clock b)).addErr (logLine clock b)
  have h5 := steps_file (proc := id) (faulty := false) (i := 0) (r := a) (ws := (pieces clock a).tail) (s := s4) rfl
  let s5 := ((s4.setLock 0 none).goto 0 (.stderr (pieces clock a))).addFile (pieces clock a).tail.flatten
  have h6 := steps_print (proc := id) (faulty := false) (i := 0) (pieces clock a) s5 rfl
  refine ⟨_, Steps.trans (Steps.trans (Steps.trans h3 h4) h5) h6, ?_, fun es hw => ?_⟩
  · intro i
    show (if i = 0 then Phase.idle else if i = 0 then _ else if i = 0 then _ else if i = 0 then _ else if i = 0 then _ else Phase.idle)
        = Phase.idle ∧
      (if i = 1 then [] else if i = 0 then [] else if i = 0 then [a] else if i = 1 then [b] else []) = []
    by_cases h0 : i = 0 <;> by_cases h1 : i = 1 <;> simp [h0, h1]
  · have : ∀ x : Text, (([] ++ hms clock) ++ logLine clock b) ++ x ≠ es.flatMap (·.text) := fun x => by
      rw [List.nil_append, logLine]
      simp only [List.append_assoc]
      exact not_log hw
    exact this _

/-- Line breaks in a message are not escaped: one record can look like two, the second of any level and from anywhere. -/
theorem C80_forged (t : Nat) (level : Level) (target x : Text) (r : Record) (hr : r.pairs = []) :
    ∃ args, logLine t { r with args := args } = logLine t r ++ logLine t ⟨level, target, x, []⟩ := by
  refine ⟨r.args ++ ['\n'] ++ hms t ++ [' '] ++ pad level.text ++ [' '] ++ target ++ ": ".toList ++ x, ?_⟩
  simp only [logLine, hr, List.flatMap_nil, List.append_nil, List.append_assoc]

/-- Everything that any of finitely many threads wants to log can be logged, whatever the records are. -/
theorem C80_possible (n : Nat) (prog : Nat → List Record) (clock : Nat) (old : Text) (hn : ∀ i, n ≤ i → prog i = []) :
    ∃ s, Steps (fun _ => 0) false (start prog clock old) s ∧ Finished s ∧
      s.file = old ++ (List.range n).flatMap fun i => (wanted (prog i)).flatMap (logLine clock) := by
  have : ∀ k, ∃ s, Steps (fun _ => 0) false (start prog clock old) s ∧ s.phase = (fun _ => .idle) ∧ s.lock = (fun _ => none) ∧
      (∀ i, i < k → s.todo i = []) ∧ (∀ i, k ≤ i → s.todo i = prog i) ∧ s.clock = clock ∧
      s.file = old ++ (List.range k).flatMap fun i => (wanted (prog i)).flatMap (logLine clock) := by
    intro k
    induction k with
    | zero => exact ⟨_, .refl, rfl, rfl, nofun, fun _ _ => rfl, rfl, by simp [start]⟩
    | succ k ih =>
      obtain ⟨s, h1, h2, h3, h4, h5, h6, h7⟩ := ih
      obtain ⟨t, g1, g2, g3, g4, g5, g6, g7⟩ := steps_all (proc := fun _ => 0) (faulty := false) (i := k) (prog k) s
        (by rw [h2]) (h5 k (Nat.le_refl _)) (by rw [h3])
      refine ⟨t, Steps.trans h1 g1, g2.trans h2, g3.trans h3, fun i hi => ?_, fun i hi => ?_, g6.trans h6, ?_⟩
      · by_cases e : i = k
        · rw [e]; exact g4
        · rw [g5 i e]; exact h4 i (by omega)
      · rw [g5 i (by omega)]; exact h5 i (by omega)
      · rw [g7, h7, h6, List.range_succ, List.flatMap_append, List.flatMap_cons, List.flatMap_nil, List.append_nil,
          filter_wanted, List.append_assoc]
  obtain ⟨s, h1, h2, _, h4, h5, _, h7⟩ := this n
  refine ⟨s, h1, fun i => ⟨by rw [h2], ?_⟩, h7⟩
  by_cases hi : i < n
  · exact h4 i hi
  · rw [h5 i (by omega)]; exact hn i (by omega)

/-! ### A concrete log -/

/-- A record with a pair. -/
def exampleRecord : Record := ⟨.info, "mabo_lsp::state".toList, "opened".toList, [("uri".toList, "file:///a.mabo".toList)]⟩

/-- A record that is wanted, and one that is not. -/
def exampleRecords : List Record :=
  [exampleRecord, ⟨.debug, "lsp_server".toList, "sent".toList, []⟩]

example : (exampleRecords.map fun r => decide (Wanted r)) = [true, false] := by decide
example : ∀ r ∈ exampleRecords, OneLine r := by decide +kernel
example : (wanted exampleRecords).flatMap (logLine 3661) =
    "01:01:01 INFO  mabo_lsp::state: opened uri=file:///a.mabo\n".toList := by decide +kernel
example : ∃ s, Steps (fun _ => 0) false (start (twoThreads exampleRecord exampleRecord) 7 []) s ∧ Finished s := by
  obtain ⟨s, h1, h2, _⟩ := C80_possible 2 (twoThreads exampleRecord exampleRecord) 7 [] fun i hi => by
    show (if i = 0 then _ else if i = 1 then _ else []) = []
    rw [if_neg (by omega), if_neg (by omega)]
  exact ⟨s, h1, h2⟩

end Mabo.Props
