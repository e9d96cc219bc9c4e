import Verif.Lsp.ServerLemmas
/-! Sessions in which the client answers the questions of the server before it goes on. -/
namespace Mabo.Lsp
open Mabo.Spec

variable {Uri : Type} [DecidableEq Uri] {Json : Type}

omit [DecidableEq Uri] in
theorem settings_answer (reader : Reader Uri Json) (n : Nat) (a : Option Json × Option Json) (old : HoverConfig)
    (es : List (Event Json)) :
    (readSettings reader (receiveAnswer reader (BitVec.ofNat 32 n + 1)
      (.message (.response (.inl (BitVec.ofNat 32 (n + 1))) a.1 a.2) :: es))).getD old = settingsFrom reader old a := by
  obtain ⟨r, e⟩ := a
  cases e with
  | some e => rfl
  | none =>
    have : BitVec.ofNat 32 n + 1 = BitVec.ofNat 32 (n + 1) := by rw [BitVec.ofNat_add]; rfl
    simp only [receiveAnswer, this, if_true, readSettings, settingsFrom]
    cases reader.list (r.getD reader.null) with
    | none => rfl
    | some l =>
      match l with
      | [] => rfl
      | [x] => rfl
      | _ :: _ :: _ => rfl

/-- What happens in an exchange: the state afterwards and the messages sent. -/
structure Exchanged (s : Server Uri Json) (n : Nat) (st : State Uri) (x : Exchange Json) (out : List (Outgoing Uri))
    (st' : State Uri) : Prop where
  nextId : st'.nextId = BitVec.ofNat 32 (n + x.answers.length)
  settings : st'.settings = settingsAfter s.reader st.settings [x]
  noted : ∀ note, documentNote s.reader x.message = some note →
    stepPublish s.env s.offset s.position st.files note = .ok (st'.files, diagnostics out)
  unnoted : documentNote s.reader x.message = none → st'.files = st.files ∧ diagnostics out = []
  answered : (responses out).map Prod.fst = (requests [.message x.message]).map Prod.fst

theorem mainLoop_pauses (s : Server Uri Json) (st : State Uri) (es : List (Event Json)) : ∀ bs : List Bool,
    mainLoop s 0 st (bs.map .pause ++ es) = mainLoop s 0 st es
  | [] => rfl
  | _ :: bs => mainLoop_pauses s st es bs

/-- A message that makes a handler panic. -/
def Stops (s : Server Uri Json) (st : State Uri) (m : Incoming Json) : Prop :=
  (∃ id method params, m = .request id method params ∧ (onRequest s st [] id method params).stop = some .panicked) ∨
  ∃ note, documentNote s.reader m = some note ∧ stepPublish s.env s.offset s.position st.files note = .panic

theorem exchange_run (s : Server Uri Json) (n : Nat) (st : State Uri) (hn : st.nextId = BitVec.ofNat 32 n) (x : Exchange Json)
    (hp : Prompt s.reader x) (hs : ∀ id params, x.message ≠ .request id "shutdown" params) :
    Stops s st x.message ∨
    ∃ out st', (∀ rest, mainLoop s 0 st (x.pauses.map .pause ++ .message x.message :: answerEvents n x.answers ++ rest) =
      (out ++ (mainLoop s 0 st' rest).1, (mainLoop s 0 st' rest).2)) ∧ Exchanged s n st x out st' := by
  obtain ⟨pauses, message, answers⟩ := x
  simp only [List.append_assoc, mainLoop_pauses, List.cons_append, mainLoop_message]
  unfold Prompt at hp
  cases message with
  | request id method params =>
    have ha : answers = [] := by simpa [questionsOn] using hp
    subst ha
    have hne : method ≠ "shutdown" := fun h => hs id params (by rw [h])
    have hind : ∀ rest, onRequest s st rest id method params = onRequest s st [] id method params := by
      intro rest; rw [onRequest_eq, onRequest_eq, if_neg hne, if_neg hne]
    obtain ⟨h1, h2, h3, _, h4⟩ := onRequest_out s st [] id method params
    simp only [onMessage, hind, answerEvents, List.nil_append]
    rcases h1 with ⟨_, h5⟩ | ⟨r, h5, _, h6⟩
    · left; exact .inl ⟨id, method, params, rfl, h5⟩
    · right
      refine ⟨(onRequest s st [] id method params).out, st, fun rest => ?_, ?_⟩
      · rw [h6 hne, h2, h3]
      · exact ⟨by simpa using hn, rfl, fun note h => (nomatch h), fun _ => ⟨rfl, h4⟩, by simp [h5, requests]⟩
  | response a b c =>
    have ha : answers = [] := by simpa [questionsOn] using hp
    subst ha
    right
    exact ⟨[], st, fun rest => rfl,
      ⟨by simpa using hn, rfl, fun note h => (nomatch h), fun _ => ⟨rfl, rfl⟩, rfl⟩⟩
  | notification method params =>
    simp only [onMessage, onNotification_eq]
    by_cases h1 : method = "initialized" ∧ (s.reader.initialized params).isSome
    · simp only [questionsOn, if_pos h1] at hp
      match answers, hp with
      | [a, b], _ =>
        right
        have hdoc : documentNote s.reader (.notification method params) = none := by
          simp [documentNote, h1.1]
        simp only [if_pos h1, initialized_eq, answerEvents, List.cons_append, List.nil_append, hn, settings_answer]
        refine ⟨[.request (.inl (BitVec.ofNat 32 n + 1)) configurationMethod,
          .request (.inl (BitVec.ofNat 32 n + 1 + 1)) registerMethod], ⟨BitVec.ofNat 32 n + 1 + 1, st.files, settingsFrom s.reader st.settings a⟩, fun rest => ?_, ?_⟩
        · simp only [mainLoop_skip s _ 2, mainLoop_skip s _ 1]; rfl
        · refine ⟨?_, rfl, fun note h => ?_, fun _ => ⟨rfl, rfl⟩, rfl⟩
          · rw [List.length_cons, List.length_cons, List.length_nil, BitVec.ofNat_add, BitVec.add_assoc]; rfl
          · rw [hdoc] at h; cases h
    by_cases h2 : method = "workspace/didChangeConfiguration" ∧ (s.reader.didChangeConfiguration params).isSome
    · simp only [questionsOn, if_neg h1, if_pos h2] at hp
      match answers, hp with
      | [a], _ =>
        right
        have hdoc : documentNote s.reader (.notification method params) = none := by
          simp [documentNote, h2.1]
        simp only [if_neg h1, if_pos h2, reloadSettings_eq, answerEvents, List.cons_append, List.nil_append, hn,
          settings_answer]
        refine ⟨[.request (.inl (BitVec.ofNat 32 n + 1)) configurationMethod], ⟨BitVec.ofNat 32 n + 1, st.files, settingsFrom s.reader st.settings a⟩, fun rest => ?_, ?_⟩
        · simp only [mainLoop_skip s _ 2, mainLoop_skip s _ 1]; rfl
        · refine ⟨?_, rfl, fun note h => ?_, fun _ => ⟨rfl, rfl⟩, rfl⟩
          · rw [List.length_cons, List.length_nil, BitVec.ofNat_add]; rfl
          · rw [hdoc] at h; cases h
    · have ha : answers = [] := by simpa [questionsOn, if_neg h1, if_neg h2] using hp
      subst ha
      simp only [if_neg h1, if_neg h2, answerEvents, List.nil_append]
      cases hd : documentNote s.reader (.notification method params) with
      | none =>
        right
        exact ⟨[], st, fun rest => rfl,
          ⟨by simpa using hn, rfl, fun note h => (by rw [hd] at h; cases h), fun _ => ⟨rfl, rfl⟩, rfl⟩⟩
      | some note =>
        cases hst : stepPublish s.env s.offset s.position st.files note with
        | panic => left; exact .inr ⟨note, hd, hst⟩
        | ok y =>
          obtain ⟨fs, ps⟩ := y
          right
          refine ⟨ps.map .diagnostics, { st with files := fs }, fun rest => by simp only [handleDocument, hst], ?_⟩
          refine ⟨by simpa using hn, rfl, fun m h => ?_, fun h => (by rw [hd] at h; cases h), ?_⟩
          · rw [hd] at h; cases h
            rw [diagnostics_diagnostics, hst]
          · rw [responses_diagnostics]; rfl

/-- What happened in a part of a session. -/
structure Session (s : Server Uri Json) (st : State Uri) (xs : List (Exchange Json)) (out : List (Outgoing Uri))
    (st' : State Uri) : Prop where
  settings : st'.settings = settingsAfter s.reader st.settings xs
  files : runPublish s.env s.offset s.position st.files (documentNotes s.reader xs) = .ok (st'.files, diagnostics out)
  answered : (responses out).map Prod.fst = (requests (xs.map fun x => .message x.message)).map Prod.fst

/-- The sessions in which no handler panics. -/
theorem exchanges_run (s : Server Uri Json) (Alive : State Uri → List (Exchange Json) → Prop)
    (hno : ∀ st x xs, Alive st (x :: xs) → ¬ Stops s st x.message)
    (hstep : ∀ st x xs n out st', Alive st (x :: xs) → Exchanged s n st x out st' → Alive st' xs) :
    ∀ (xs : List (Exchange Json)) (n : Nat) (st : State Uri),
    st.nextId = BitVec.ofNat 32 n → (∀ x ∈ xs, Prompt s.reader x) → NoShutdown xs → Alive st xs →
    ∃ out st', (∀ rest, mainLoop s 0 st (exchangeEvents n xs ++ rest) =
      (out ++ (mainLoop s 0 st' rest).1, (mainLoop s 0 st' rest).2)) ∧ Session s st xs out st' ∧ Alive st' []
  | [], n, st, _, _, _, ha => ⟨[], st, fun rest => rfl, ⟨rfl, rfl, rfl⟩, ha⟩
  | x :: xs, n, st, hn, hp, hs, ha => by
    have e : ∀ rest, exchangeEvents n (x :: xs) ++ rest = x.pauses.map .pause ++ .message x.message ::
        answerEvents n x.answers ++ (exchangeEvents (n + x.answers.length) xs ++ rest) := fun rest => by
      rw [exchangeEvents, List.append_assoc]
    rcases exchange_run s n st hn x (hp x (by simp)) (fun id ps => hs x (by simp) id ps) with h | ⟨o1, st1, h1, h2⟩
    · exact absurd h (hno st x xs ha)
    · obtain ⟨o2, st2, h3, h4, h5⟩ := exchanges_run s Alive hno hstep xs (n + x.answers.length) st1 h2.nextId
        (fun y hy => hp y (by simp [hy])) (fun y hy => hs y (by simp [hy])) (hstep st x xs n o1 st1 ha h2)
      refine ⟨o1 ++ o2, st2, fun rest => by rw [e, h1, h3, List.append_assoc], ⟨?_, ?_, ?_⟩, h5⟩
      · rw [h4.settings, h2.settings]; rfl
      · rw [diagnostics_append]
        cases hd : documentNote s.reader x.message with
        | none =>
          have := h2.unnoted hd
          have hf := h4.files
          rw [this.1] at hf
          simp only [documentNotes, List.filterMap_cons, hd, this.2, List.nil_append]
          exact hf
        | some note =>
          have := h2.noted note hd
          have hf := h4.files
          simp only [documentNotes, List.filterMap_cons, hd, runPublish, this, Outcome.bind] at hf ⊢
          rw [hf]
      · rw [responses_append, List.map_append, h2.answered, h4.answered, List.map_cons,
          requests_cons (.message x.message) (xs.map fun x => .message x.message), List.map_append]

end Mabo.Lsp
