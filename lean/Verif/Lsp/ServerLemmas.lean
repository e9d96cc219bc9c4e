import Verif.Spec.Server
/-! Lemmas about the message loop. -/
namespace Mabo.Lsp
open Mabo.Spec

variable {Uri : Type} [DecidableEq Uri] {Json : Type}

/-! ### The outputs -/

omit [DecidableEq Uri] in
theorem responses_append (a b : List (Outgoing Uri)) : responses (a ++ b) = responses a ++ responses b := by
  induction a with
  | nil => rfl
  | cons x xs ih => cases x <;> simp [responses, ih]

omit [DecidableEq Uri] in
theorem questions_append (a b : List (Outgoing Uri)) : questions (a ++ b) = questions a ++ questions b := by
  induction a with
  | nil => rfl
  | cons x xs ih => cases x <;> simp [questions, ih]

omit [DecidableEq Uri] in
theorem diagnostics_append (a b : List (Outgoing Uri)) : diagnostics (a ++ b) = diagnostics a ++ diagnostics b := by
  induction a with
  | nil => rfl
  | cons x xs ih => cases x <;> simp [diagnostics, ih]

omit [DecidableEq Uri] in
theorem responses_diagnostics (ps : List (Published Uri)) : responses (ps.map .diagnostics) = [] := by
  induction ps with
  | nil => rfl
  | cons p ps ih => simp [responses, ih]

omit [DecidableEq Uri] in
theorem questions_diagnostics (ps : List (Published Uri)) : questions (ps.map .diagnostics) = [] := by
  induction ps with
  | nil => rfl
  | cons p ps ih => simp [questions, ih]

omit [DecidableEq Uri] in
theorem diagnostics_diagnostics (ps : List (Published Uri)) : diagnostics (ps.map .diagnostics) = ps := by
  induction ps with
  | nil => rfl
  | cons p ps ih => simp [diagnostics, ih]

/-! ### The handlers as chains of conditions -/

theorem onRequest_eq (s : Server Uri Json) (st : State Uri) (es : List (Event Json)) (id : RequestId) (method : String)
    (params : Json) : onRequest s st es id method params =
      if method = "shutdown" then ⟨[.response id .null], st, 0, some (awaitExit es)⟩
      else if method = "textDocument/hover" then
        handleRequest st id (s.reader.hover params)
          (fun p => hover s.env.std s.env.checked st.settings s.offset s.position st.files p.1 p.2) .hover
      else if method = "textDocument/documentSymbol" then
        handleRequest st id (s.reader.documentSymbol params)
          (fun u => documentSymbol s.env.std s.env.checked s.position st.files u) (fun r => .symbols (r.getD []))
      else if method = "textDocument/semanticTokens/full" then
        handleRequest st id (s.reader.semanticTokens params)
          (fun u => semanticTokens s.env.std s.env.checked s.position st.files u) (fun r => .tokens (r.getD []))
      else ⟨[.response id .methodNotFound], st, 0, none⟩ := by
  unfold onRequest
  split
  · rfl
  · simp only [String.reduceEq, if_false, if_true]
  · simp only [String.reduceEq, if_false, if_true]
  · simp only [String.reduceEq, if_false, if_true]
  · rename_i h1 h2 h3 h4
    rw [if_neg h1, if_neg h2, if_neg h3, if_neg h4]

theorem onNotification_eq (s : Server Uri Json) (st : State Uri) (es : List (Event Json)) (method : String)
    (params : Json) : onNotification s st es method params =
      if method = "initialized" ∧ (s.reader.initialized params).isSome then initialized s.reader st es
      else if method = "workspace/didChangeConfiguration" ∧ (s.reader.didChangeConfiguration params).isSome then
        reloadSettings s.reader st es
      else handleDocument s st (documentNote s.reader (.notification method params)) := by
  unfold onNotification
  split
  · cases h : s.reader.initialized params <;> simp [documentNote, handleDocument]
  · simp only [documentNote, String.reduceEq, false_and, if_false, if_true]
  · simp only [documentNote, String.reduceEq, false_and, if_false, if_true]
  · simp only [documentNote, String.reduceEq, false_and, if_false, if_true]
  · simp only [documentNote, String.reduceEq, false_and, if_false, if_true]
  · cases h : s.reader.didChangeConfiguration params <;> simp [documentNote, handleDocument]
  · rename_i h1 h2 h3 h4 h5 h6
    rw [if_neg (fun h => h1 h.1), if_neg (fun h => h6 h.1)]
    simp only [documentNote, if_neg h2, if_neg h3, if_neg h4, if_neg h5, handleDocument]

/-! ### What a turn sends -/

omit [DecidableEq Uri] in
theorem handleRequest_out {P R : Type} (st : State Uri) (id : RequestId) (params : Option P) (handler : P → Resp R)
    (post : R → Reply) :
    (responses (handleRequest st id params handler post).out = [] ∧
        (handleRequest st id params handler post).stop = some .panicked ∨
      ∃ r, responses (handleRequest st id params handler post).out = [(id, r)] ∧
        (handleRequest st id params handler post).stop = none ∧
        (match params with
          | none => r = .invalidParams
          | some _ => r = .internalError ∨ ∃ x, r = post x)) ∧
    (handleRequest st id params handler post).state = st ∧ (handleRequest st id params handler post).read = 0 ∧
    questions (handleRequest st id params handler post).out = [] ∧
    diagnostics (handleRequest st id params handler post).out = [] := by
  unfold handleRequest
  cases params with
  | none => simp [responses, questions, diagnostics]
  | some p =>
    simp only []
    cases h : handler p with
    | ok r => exact ⟨.inr ⟨_, rfl, rfl, .inr ⟨r, rfl⟩⟩, rfl, rfl, rfl, rfl⟩
    | error => exact ⟨.inr ⟨_, rfl, rfl, .inl rfl⟩, rfl, rfl, rfl, rfl⟩
    | panic => exact ⟨.inl ⟨rfl, rfl⟩, rfl, rfl, rfl, rfl⟩

theorem onRequest_out (s : Server Uri Json) (st : State Uri) (es : List (Event Json)) (id : RequestId) (method : String)
    (params : Json) :
    (responses (onRequest s st es id method params).out = [] ∧ (onRequest s st es id method params).stop = some .panicked ∨
      ∃ r, responses (onRequest s st es id method params).out = [(id, r)] ∧ Fits s.reader (id, method, params) (id, r) ∧
        (method ≠ "shutdown" → (onRequest s st es id method params).stop = none)) ∧
    (onRequest s st es id method params).state = st ∧ (onRequest s st es id method params).read = 0 ∧
    questions (onRequest s st es id method params).out = [] ∧
    diagnostics (onRequest s st es id method params).out = [] := by
  rw [onRequest_eq]
  by_cases h0 : method = "shutdown"
  · rw [if_pos h0]
    exact ⟨.inr ⟨.null, rfl, ⟨rfl, by simp [h0]⟩, fun h => absurd h0 h⟩, rfl, rfl, rfl, rfl⟩
  rw [if_neg h0]
  by_cases h1 : method = "textDocument/hover"
  · rw [if_pos h1]
    obtain ⟨h, h'⟩ := handleRequest_out st id (s.reader.hover params)
      (fun p => hover s.env.std s.env.checked st.settings s.offset s.position st.files p.1 p.2) .hover
    refine ⟨?_, h'⟩
    rcases h with h | ⟨r, a, b, c⟩
    · exact .inl h
    · refine .inr ⟨r, a, ⟨rfl, ?_⟩, fun _ => b⟩
      simp only [if_neg h0, if_pos h1]
      cases hp : s.reader.hover params <;> simp only [hp] at c ⊢ <;> exact c
  rw [if_neg h1]
  by_cases h2 : method = "textDocument/documentSymbol"
  · rw [if_pos h2]
    obtain ⟨h, h'⟩ := handleRequest_out st id (s.reader.documentSymbol params)
      (fun u => documentSymbol s.env.std s.env.checked s.position st.files u) (fun r => .symbols (r.getD []))
    refine ⟨?_, h'⟩
    rcases h with h | ⟨r, a, b, c⟩
    · exact .inl h
    · refine .inr ⟨r, a, ⟨rfl, ?_⟩, fun _ => b⟩
      simp only [if_neg h0, if_neg h1, if_pos h2]
      cases hp : s.reader.documentSymbol params <;> simp only [hp] at c ⊢
      · exact c
      · exact c.imp (fun h => h) fun ⟨x, hx⟩ => ⟨_, hx⟩
  rw [if_neg h2]
  by_cases h3 : method = "textDocument/semanticTokens/full"
  · rw [if_pos h3]
    obtain ⟨h, h'⟩ := handleRequest_out st id (s.reader.semanticTokens params)
      (fun u => semanticTokens s.env.std s.env.checked s.position st.files u) (fun r => .tokens (r.getD []))
    refine ⟨?_, h'⟩
    rcases h with h | ⟨r, a, b, c⟩
    · exact .inl h
    · refine .inr ⟨r, a, ⟨rfl, ?_⟩, fun _ => b⟩
      simp only [if_neg h0, if_neg h1, if_neg h2, if_pos h3]
      cases hp : s.reader.semanticTokens params <;> simp only [hp] at c ⊢
      · exact c
      · exact c.imp (fun h => h) fun ⟨x, hx⟩ => ⟨_, hx⟩
  rw [if_neg h3]
  exact ⟨.inr ⟨_, rfl, ⟨rfl, by simp only [if_neg h0, if_neg h1, if_neg h2, if_neg h3]⟩, fun _ => rfl⟩, rfl, rfl, rfl, rfl⟩

omit [DecidableEq Uri] in
theorem reloadSettings_eq (reader : Reader Uri Json) (st : State Uri) (es : List (Event Json)) :
    reloadSettings reader st es = ⟨[.request (.inl (st.nextId + 1)) configurationMethod],
      ⟨st.nextId + 1, st.files, (readSettings reader (receiveAnswer reader (st.nextId + 1) es)).getD st.settings⟩,
      1, none⟩ := by
  simp only [reloadSettings, sendRequest]
  cases readSettings reader (receiveAnswer reader (st.nextId + 1) es) <;> rfl

omit [DecidableEq Uri] in
theorem initialized_eq (reader : Reader Uri Json) (st : State Uri) (es : List (Event Json)) :
    initialized reader st es = ⟨[.request (.inl (st.nextId + 1)) configurationMethod,
        .request (.inl (st.nextId + 1 + 1)) registerMethod],
      ⟨st.nextId + 1 + 1, st.files, (readSettings reader (receiveAnswer reader (st.nextId + 1) es)).getD st.settings⟩,
      2, none⟩ := by
  simp only [initialized, reloadSettings_eq, sendRequest]
  rfl

theorem handleDocument_out (s : Server Uri Json) (st : State Uri) (n : Option (Notification Uri)) :
    responses (handleDocument s st n).out = [] ∧ questions (handleDocument s st n).out = [] ∧
      (handleDocument s st n).read = 0 ∧ (handleDocument s st n).state.nextId = st.nextId := by
  unfold handleDocument
  cases n with
  | none => exact ⟨rfl, rfl, rfl, rfl⟩
  | some n =>
    simp only []
    cases stepPublish s.env s.offset s.position st.files n with
    | ok x => exact ⟨responses_diagnostics _, questions_diagnostics _, rfl, rfl⟩
    | panic => exact ⟨rfl, rfl, rfl, rfl⟩

theorem onNotification_responses (s : Server Uri Json) (st : State Uri) (es : List (Event Json)) (method : String)
    (params : Json) : responses (onNotification s st es method params).out = [] := by
  rw [onNotification_eq]
  by_cases h1 : method = "initialized" ∧ (s.reader.initialized params).isSome
  · rw [if_pos h1, initialized_eq]; rfl
  rw [if_neg h1]
  by_cases h2 : method = "workspace/didChangeConfiguration" ∧ (s.reader.didChangeConfiguration params).isSome
  · rw [if_pos h2, reloadSettings_eq]; rfl
  rw [if_neg h2]
  exact (handleDocument_out ..).1

/-! ### The loop -/

omit [DecidableEq Uri] in
theorem requests_cons (e : Event Json) (es : List (Event Json)) : requests (e :: es) = requests [e] ++ requests es := by
  rcases e with ⟨_ | _ | _⟩ | _ <;> rfl

theorem mainLoop_message (s : Server Uri Json) (st : State Uri) (m : Incoming Json) (es : List (Event Json)) :
    mainLoop s 0 st (.message m :: es) =
      match (onMessage s st es m).stop with
      | some e => ((onMessage s st es m).out, e)
      | none => ((onMessage s st es m).out ++ (mainLoop s (onMessage s st es m).read (onMessage s st es m).state es).1,
          (mainLoop s (onMessage s st es m).read (onMessage s st es m).state es).2) := by
  rw [mainLoop]
  generalize onMessage s st es m = t
  obtain ⟨o, st', r, e⟩ := t
  cases e <;> rfl

theorem mainLoop_skip (s : Server Uri Json) (st : State Uri) : ∀ (n : Nat) (es : List (Event Json)),
    mainLoop s n st es = mainLoop s 0 st (es.drop n)
  | 0, _ => rfl
  | n + 1, [] => by simp [mainLoop]
  | n + 1, e :: es => by rw [mainLoop, List.drop_succ_cons]; exact mainLoop_skip s st n es

theorem mainLoop_pause (s : Server Uri Json) (st : State Uri) (b : Bool) (es : List (Event Json)) :
    mainLoop s 0 st (.pause b :: es) = mainLoop s 0 st es := rfl

omit [DecidableEq Uri] in
theorem answers_skips {reader : Reader Uri Json} : ∀ (a : List (Event Json)) {b : List (Event Json)} {as},
    Answers reader (requests b) as → Answers reader (requests (a ++ b)) as
  | [], _, _, h => h
  | .message (.request _ _ _) :: a, _, _, h => .skip (answers_skips a h)
  | .message (.response _ _ _) :: a, _, _, h => answers_skips a h
  | .message (.notification _ _) :: a, _, _, h => answers_skips a h
  | .pause _ :: a, _, _, h => answers_skips a h

omit [DecidableEq Uri] in
theorem answers_drop {reader : Reader Uri Json} (n : Nat) {es : List (Event Json)} {as}
    (h : Answers reader (requests (es.drop n)) as) : Answers reader (requests es) as := by
  have := answers_skips (es.take n) h
  rwa [List.take_append_drop] at this

omit [DecidableEq Uri] in
theorem answers_none {reader : Reader Uri Json} (qs) : Answers reader qs [] := by
  induction qs with
  | nil => exact .nil
  | cons q qs ih => exact .skip ih

theorem mainLoop_answers (s : Server Uri Json) : ∀ (n : Nat) (es : List (Event Json)), es.length ≤ n → ∀ st,
    Answers s.reader (requests es) (responses (mainLoop s 0 st es).1)
  | _, [], _, _ => .nil
  | 0, e :: es, h, _ => by simp at h
  | n + 1, .pause b :: es, h, st => by
    rw [mainLoop_pause]
    exact mainLoop_answers s n es (by simpa using h) st
  | n + 1, .message m :: es, h, st => by
    have hlen : es.length ≤ n := by simpa using h
    rw [mainLoop_message]
    have later : ∀ k st, Answers s.reader (requests es) (responses (mainLoop s k st es).1) := by
      intro k st
      rw [mainLoop_skip]
      exact answers_drop k (mainLoop_answers s n (es.drop k) (by rw [List.length_drop]; omega) st)
    cases m with
    | request id method params =>
      have ho := (onRequest_out s st es id method params).1
      simp only [onMessage, requests]
      rcases ho with ⟨h1, h2⟩ | ⟨r, h1, h2, h3⟩
      · rw [h2]; simp only [h1]; exact answers_none _
      · cases hs : (onRequest s st es id method params).stop with
        | some e => simp only [h1]; exact .answer h2 (answers_none _)
        | none => simp only [responses_append, h1]; exact .answer h2 (later _ _)
    | response id r e =>
      simp only [onMessage, List.nil_append]
      exact later _ _
    | notification method params =>
      have ho := onNotification_responses s st es method params
      simp only [onMessage, requests]
      cases hs : (onNotification s st es method params).stop with
      | some e => simp only [ho]; exact answers_none _
      | none => simp only [responses_append, ho, List.nil_append]; exact later _ _

/-! ### More events -/

omit [DecidableEq Uri] in
theorem receiveAnswer_append {reader : Reader Uri Json} {id : BitVec 32} {es : List (Event Json)} (h : es ≠ [])
    (more : List (Event Json)) : receiveAnswer reader id (es ++ more) = receiveAnswer reader id es := by
  cases es with
  | nil => exact absurd rfl h
  | cons e es =>
    rcases e with ⟨_ | ⟨_, _, _ | _⟩ | _⟩ | _ <;> rfl

theorem onMessage_append (s : Server Uri Json) (st : State Uri) {es : List (Event Json)} (h : es ≠ [])
    (more : List (Event Json)) (m : Incoming Json) :
    (onMessage s st (es ++ more) m).out = (onMessage s st es m).out ∧
    (onMessage s st (es ++ more) m).state = (onMessage s st es m).state ∧
    (onMessage s st (es ++ more) m).read = (onMessage s st es m).read ∧
    ((onMessage s st (es ++ more) m).stop = none ↔ (onMessage s st es m).stop = none) := by
  cases m with
  | request id method params =>
    simp only [onMessage, onRequest_eq]
    by_cases h0 : method = "shutdown"
    · simp only [if_pos h0]; simp
    · simp only [if_neg h0]; simp
  | response _ _ _ => exact ⟨rfl, rfl, rfl, Iff.rfl⟩
  | notification method params =>
    simp only [onMessage, onNotification_eq, initialized_eq, reloadSettings_eq, receiveAnswer_append h]
    simp

theorem onMessage_nil (s : Server Uri Json) (st : State Uri) (more : List (Event Json)) (m : Incoming Json) :
    responses (onMessage s st more m).out = responses (onMessage s st [] m).out := by
  cases m with
  | request id method params =>
    simp only [onMessage, onRequest_eq]
    by_cases h0 : method = "shutdown"
    · simp only [if_pos h0]
    · simp only [if_neg h0]
  | response _ _ _ => rfl
  | notification method params => simp only [onMessage, onNotification_responses]

theorem mainLoop_prefix (s : Server Uri Json) (more : List (Event Json)) : ∀ (es : List (Event Json)) (k : Nat) (st : State Uri),
    responses (mainLoop s k st es).1 <+: responses (mainLoop s k st (es ++ more)).1
  | [], k, st => by
    have : responses (mainLoop s k st ([] : List (Event Json))).1 = [] := by cases k <;> rfl
    rw [this]; exact List.nil_prefix
  | _ :: es, k + 1, st => mainLoop_prefix s more es k st
  | .pause _ :: es, 0, st => mainLoop_prefix s more es 0 st
  | .message m :: es, 0, st => by
    rw [List.cons_append, mainLoop_message, mainLoop_message]
    by_cases he : es = []
    · subst he
      have hr := onMessage_nil s st more m
      rw [List.nil_append]
      have h1 : responses (match (onMessage s st [] m).stop with
          | some e => ((onMessage s st [] m).out, e)
          | none => ((onMessage s st [] m).out ++ (mainLoop s (onMessage s st [] m).read (onMessage s st [] m).state []).1,
            (mainLoop s (onMessage s st [] m).read (onMessage s st [] m).state []).2)).1 =
            responses (onMessage s st [] m).out := by
        have hn : ∀ k st, mainLoop s k st ([] : List (Event Json)) = ([], .closed) := fun k st => by cases k <;> rfl
        cases (onMessage s st [] m).stop <;> simp [hn]
      rw [h1, ← hr]
      cases (onMessage s st more m).stop with
      | none => simp only [responses_append]; exact List.prefix_append _ _
      | some e => exact List.prefix_refl _
    · obtain ⟨h1, h2, h3, h4⟩ := onMessage_append s st he more m
      rw [h1, h2, h3]
      cases hs : (onMessage s st es m).stop with
      | none =>
        rw [h4.2 hs]
        simp only [responses_append]
        exact List.prefix_append_right_inj _ |>.2 (mainLoop_prefix s more es _ _)
      | some e =>
        cases hs' : (onMessage s st (es ++ more) m).stop with
        | none => rw [h4.1 hs'] at hs; cases hs
        | some e' => exact List.prefix_refl _

/-! ### Numbers of questions -/

/-- The questions have the numbers behind `n`. -/
def CountsFrom (n : BitVec 32) (qs : List (RequestId × String)) : Prop :=
  ∀ (i : Nat) q, qs[i]? = some q → q.1 = .inl (n + BitVec.ofNat 32 (i + 1))

theorem countsFrom_append {n : BitVec 32} {as bs : List (RequestId × String)} (ha : CountsFrom n as)
    (hb : CountsFrom (n + BitVec.ofNat 32 as.length) bs) : CountsFrom n (as ++ bs) := by
  intro i q h
  rw [List.getElem?_append] at h
  split at h
  · exact ha i q h
  · rw [hb _ q h, BitVec.add_assoc, ← BitVec.ofNat_add]
    congr 3
    omega

theorem onMessage_questions (s : Server Uri Json) (st : State Uri) (es : List (Event Json)) (m : Incoming Json) :
    CountsFrom st.nextId (questions (onMessage s st es m).out) ∧
      (onMessage s st es m).state.nextId = st.nextId + BitVec.ofNat 32 (questions (onMessage s st es m).out).length := by
  have none : ∀ {n : BitVec 32}, CountsFrom n [] := fun i q h => by cases h
  cases m with
  | request id method params =>
    obtain ⟨_, h1, _, h2, _⟩ := onRequest_out s st es id method params
    simp only [onMessage, h1, h2]
    exact ⟨none, by simp⟩
  | response _ _ _ => exact ⟨none, by simp [onMessage, questions]⟩
  | notification method params =>
    simp only [onMessage, onNotification_eq]
    by_cases h1 : method = "initialized" ∧ (s.reader.initialized params).isSome
    · rw [if_pos h1, initialized_eq]
      refine ⟨fun i q h => ?_, ?_⟩
      · match i, h with
        | 0, h => simp [questions] at h; subst h; rfl
        | 1, h => simp [questions] at h; subst h; simp only [BitVec.add_assoc]; rfl
        | i + 2, h => simp [questions] at h
      · simp only [questions, List.length_cons, List.length_nil, BitVec.add_assoc]; rfl
    rw [if_neg h1]
    by_cases h2 : method = "workspace/didChangeConfiguration" ∧ (s.reader.didChangeConfiguration params).isSome
    · rw [if_pos h2, reloadSettings_eq]
      refine ⟨fun i q h => ?_, ?_⟩
      · match i, h with
        | 0, h => simp [questions] at h; subst h; rfl
        | i + 1, h => simp [questions] at h
      · rfl
    rw [if_neg h2]
    obtain ⟨_, h3, _, h4⟩ := handleDocument_out s st (documentNote s.reader (.notification method params))
    rw [h3, h4]
    exact ⟨none, by simp⟩

theorem mainLoop_questions (s : Server Uri Json) : ∀ (es : List (Event Json)) (k : Nat) (st : State Uri),
    CountsFrom st.nextId (questions (mainLoop s k st es).1)
  | [], k, st => by
    have : questions (mainLoop s k st ([] : List (Event Json))).1 = [] := by cases k <;> rfl
    rw [this]; intro i q h; cases h
  | _ :: es, k + 1, st => mainLoop_questions s es k st
  | .pause _ :: es, 0, st => mainLoop_questions s es 0 st
  | .message m :: es, 0, st => by
    rw [mainLoop_message]
    obtain ⟨h1, h2⟩ := onMessage_questions s st es m
    cases (onMessage s st es m).stop with
    | some e => exact h1
    | none =>
      simp only [questions_append]
      refine countsFrom_append h1 ?_
      rw [← h2]
      exact mainLoop_questions s es _ _

/-! ### The start -/

theorem mainLoop_response (s : Server Uri Json) (st : State Uri) (id : RequestId) (r e : Option Json) (es : List (Event Json)) :
    mainLoop s 0 st (.message (.response id r e) :: es) = mainLoop s 0 st es := by
  rw [mainLoop_message]; rfl

theorem serve_eq (s : Server Uri Json) (es : List (Event Json)) :
    serve s es = (.request (.inl 1) configurationMethod :: .request (.inl 2) registerMethod ::
        (mainLoop s 0 ⟨2, [], (readSettings s.reader (receiveAnswer s.reader 1 es)).getD ⟨true, true⟩⟩ (es.drop 2)).1,
      (mainLoop s 0 ⟨2, [], (readSettings s.reader (receiveAnswer s.reader 1 es)).getD ⟨true, true⟩⟩ (es.drop 2)).2) := by
  simp only [serve, initialized_eq, mainLoop_skip s _ 2]
  rfl

/-! ### The end -/

theorem onMessage_stop (s : Server Uri Json) (st : State Uri) (es : List (Event Json)) (m : Incoming Json) (e : End)
    (h : (onMessage s st es m).stop = some e) (he : e ≠ .panicked) :
    ∃ id params, m = .request id "shutdown" params ∧ (onMessage s st es m).out = [.response id .null] := by
  cases m with
  | request id method params =>
    by_cases h0 : method = "shutdown"
    · subst h0; exact ⟨id, params, rfl, by simp only [onMessage, onRequest_eq, if_true]⟩
    · have := (onRequest_out s st es id method params).1
      rcases this with ⟨_, h2⟩ | ⟨_, _, _, h2⟩
      · simp only [onMessage] at h; rw [h2] at h; cases h; exact absurd rfl he
      · simp only [onMessage] at h; rw [h2 h0] at h; cases h
  | response _ _ _ => cases h
  | notification method params =>
    exfalso
    simp only [onMessage, onNotification_eq, initialized_eq, reloadSettings_eq, handleDocument] at h
    split at h
    · cases h
    · split at h
      · cases h
      · split at h
        · cases h
        · split at h
          · cases h
          · cases h; exact he rfl

theorem mainLoop_stops (s : Server Uri Json) : ∀ (es : List (Event Json)) (k : Nat) (st : State Uri),
    ((mainLoop s k st es).2 = .shutdown ∨ (mainLoop s k st es).2 = .failed) →
    ∃ id params, (id, "shutdown", params) ∈ requests es ∧ (mainLoop s k st es).1.getLast? = some (.response id .null)
  | [], k, st, h => by
    have : mainLoop s k st ([] : List (Event Json)) = ([], .closed) := by cases k <;> rfl
    rw [this] at h; rcases h with h | h <;> cases h
  | e :: es, k + 1, st, h => by
    obtain ⟨id, p, h1, h2⟩ := mainLoop_stops s es k st h
    exact ⟨id, p, by rw [requests_cons]; exact List.mem_append_right _ h1, h2⟩
  | .pause _ :: es, 0, st, h => mainLoop_stops s es 0 st h
  | .message m :: es, 0, st, h => by
    rw [mainLoop_message] at h ⊢
    cases hs : (onMessage s st es m).stop with
    | some e =>
      rw [hs] at h
      simp only at h
      obtain ⟨id, p, rfl, h2⟩ := onMessage_stop s st es m e hs (by rcases h with h | h <;> rw [h] <;> simp)
      exact ⟨id, p, by simp [requests], by simp [h2]⟩
    | none =>
      rw [hs] at h
      simp only at h ⊢
      obtain ⟨id, p, h1, h2⟩ := mainLoop_stops s es _ _ h
      exact ⟨id, p, by rw [requests_cons]; exact List.mem_append_right _ h1, by rw [List.getLast?_append, h2]; rfl⟩

end Mabo.Lsp
