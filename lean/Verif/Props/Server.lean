import Verif.Lsp.ServerSession
import Verif.Props.Hover
import Verif.Props.Diagnostics
/-! Properties of the language server: C55 (requests and responses) and C56 (whole sessions). -/
namespace Mabo.Props
open Mabo.Lsp Mabo.Spec Mabo.Spec.Doc Mabo.Spec.Diag
open Mabo.Ast (Schema)

variable {Uri : Type} [DecidableEq Uri] {Json : Type}

/-! ## C55: requests and responses -/

/-- Whatever messages arrive, in whatever order and with whatever pauses: every response that is sent belongs to one
request, no request has two, they are sent in the order of the requests, and each one fits its request. -/
theorem C55_answers (s : Server Uri Json) (es : List (Event Json)) :
    Answers s.reader (requests es) (responses (serve s es).1) := by
  simp only [serve, initialized_eq, responses_append]
  show Answers s.reader (requests es) (responses (mainLoop s 2 _ es).1)
  rw [mainLoop_skip]
  exact answers_drop 2 (mainLoop_answers s _ _ (Nat.le_refl _) _)

/-- Responses are final and do not wait: what is sent until some time stays the same whatever arrives later. -/
theorem C55_at_once (s : Server Uri Json) (es more : List (Event Json)) :
    responses (serve s es).1 <+: responses (serve s (es ++ more)).1 := by
  simp only [serve, initialized_eq, responses_append]
  cases es with
  | nil =>
    show [] <+: _
    exact List.nil_prefix
  | cons e es =>
    rw [receiveAnswer_append (by simp)]
    exact mainLoop_prefix s more _ 2 _

/-- The requests of the server itself have the numbers 1, 2, 3, … (in 32 bits), and the first two are sent before anything
is read. -/
theorem C55_questions (s : Server Uri Json) (es : List (Event Json)) :
    (∀ (i : Nat) q, (questions (serve s es).1)[i]? = some q → q.1 = .inl (BitVec.ofNat 32 (i + 1))) ∧
    ((questions (serve s es).1).take 2).map Prod.snd = ["workspace/configuration", "client/registerCapability"] := by
  have h := mainLoop_questions s es 2 (initialized s.reader State.new es).state
  simp only [serve, questions_append]
  refine ⟨?_, by simp only [initialized_eq]; rfl⟩
  have key : CountsFrom 0 (questions (initialized s.reader State.new es).out ++ questions (mainLoop s 2 (initialized s.reader State.new es).state es).1) := by
    refine countsFrom_append ?_ ?_
    · rw [initialized_eq]
      intro i q h
      match i, h with
      | 0, h => simp [questions] at h; subst h; rfl
      | 1, h => simp [questions] at h; subst h; rfl
      | i + 2, h => simp [questions] at h
    · have e : (0 : BitVec 32) + BitVec.ofNat 32 (questions (initialized s.reader State.new es).out).length =
          (initialized s.reader State.new es).state.nextId := by simp only [initialized_eq]; rfl
      rw [e]; exact h
  intro i q hq
  have := key i q hq
  rw [this]; congr 1; exact BitVec.zero_add _

/-- The first thing among the events that is not a short pause. -/
def firstLasting : List (Event Json) → Option (Event Json)
  | .pause false :: es => firstLasting es
  | e :: _ => some e
  | [] => none

/-- When the client asks the server to stop (here: as the first thing after the answers to the two questions), the server says yes and sends nothing else,
whatever comes; it stops without an error exactly if `exit` comes next, without a long pause. -/
theorem C55_shutdown (s : Server Uri Json) (a b : Option Json × Option Json) (id : RequestId) (params : Json)
    (es : List (Event Json)) :
    ∃ e, serve s (answerEvents 0 [a, b] ++ .message (.request id "shutdown" params) :: es) =
        ([.request (.inl 1) "workspace/configuration", .request (.inl 2) "client/registerCapability", .response id .null], e) ∧
      (e = .shutdown ↔ ∃ p, firstLasting es = some (.message (.notification "exit" p))) ∧ (e = .shutdown ∨ e = .failed) := by
  refine ⟨awaitExit es, ?_, ?_⟩
  · simp only [serve, initialized_eq, mainLoop_skip, answerEvents, List.cons_append, List.nil_append, List.drop_succ_cons,
      List.drop_zero, mainLoop_message, onMessage, onRequest_eq, if_true]
    rfl
  · induction es with
    | nil => exact ⟨⟨fun h => (nomatch h), fun ⟨_, h⟩ => (nomatch h)⟩, .inr rfl⟩
    | cons e es ih =>
      rcases e with m | ⟨_ | _⟩
      · unfold awaitExit firstLasting
        split
        · rename_i h; cases h
        · rename_i h; cases h; exact ⟨⟨fun _ => ⟨_, rfl⟩, fun _ => rfl⟩, .inl rfl⟩
        · rename_i h1 h2
          refine ⟨⟨fun h => (nomatch h), fun ⟨p, h⟩ => ?_⟩, .inr rfl⟩
          cases h; exact absurd rfl (h2 _ _)
      · exact ih
      · exact ⟨⟨fun h => (nomatch h), fun ⟨_, h⟩ => (nomatch h)⟩, .inr rfl⟩

/-- The server stops by itself, with or without an error, only because a client asked it to stop; that answer is the last
message it sends. -/
theorem C55_stops_when_asked (s : Server Uri Json) (es : List (Event Json)) (h : (serve s es).2 = .shutdown ∨ (serve s es).2 = .failed) :
    ∃ id params, (id, "shutdown", params) ∈ requests es ∧ (serve s es).1.getLast? = some (.response id .null) := by
  simp only [serve] at h ⊢
  obtain ⟨id, params, h1, h2⟩ := mainLoop_stops s es _ _ h
  exact ⟨id, params, h1, by rw [List.getLast?_append, h2]; rfl⟩

/-! ## C56: whole sessions -/

/-- No panic of the validator in any of the files. -/
def AllFit (env : Env) (fs : Files Uri) : Prop := ∀ u f, Lsp.get fs u = some f → NumbersFit env f.content

omit [DecidableEq Uri] in
theorem fit_validates {env : Env} {text : Text} (h : NumbersFit env text) (schema : Schema)
    (hs : Parse.parseSchema env.std text = some schema) : Compiler.validateSchema env.checked schema ≠ .panic := by
  intro hc
  obtain ⟨h1, d, l, ids, id, hd, hl, ha, hi, hm⟩ := C24_panic_only_at_max _ _ hc
  exact h h1 schema hs d hd l hl ids ha id hi hm

/-- Hovering never panics, also not at positions that are not in the text. -/
theorem hover_survives (s : Server Uri Json) (config : HoverConfig) {fs : Files Uri} (hc : Consistent fs) (hf : AllFit s.env fs) (u : Uri)
    (p : Position) : hover s.env.std s.env.checked config s.offset s.position fs u p ≠ .panic := by
  cases hg : Lsp.get fs u with
  | none => simp only [hover, hg]; exact fun h => (nomatch h)
  | some f =>
    obtain ⟨text, rfl⟩ : ∃ t, f = createFile t := ⟨_, hc u f hg⟩
    have hv := fit_validates (hf u _ hg)
    simp only [createFile] at hv
    cases h : Parse.parseSchema s.env.std text with
    | none => rw [C50_no_hover _ _ _ _ _ _ _ _ (.inr ⟨text, hg, .inl h⟩)]; exact fun h => (nomatch h)
    | some schema =>
      cases hcc : Compiler.validateSchema s.env.checked schema with
      | err e => rw [C50_no_hover _ _ _ _ _ _ _ _ (.inr ⟨text, hg, .inr ⟨schema, e, h, hcc⟩⟩)]; exact fun h => (nomatch h)
      | panic => exact absurd hcc (hv schema h)
      | ok =>
        obtain ⟨sp, h1, rfl, h3⟩ := compile_ok h hcc
        obtain ⟨t, h4, _, h5⟩ := C31_validated_simplifies s.env.checked _ hcc
        have hn := Simplify.okDefs_iff.2 ((C25_validate_exact s.env.checked sp.erase).1 hcc).2
        simp only [hover, hg, createFile, h3, h4, hoverSchema]
        cases s.offset text p with
        | none => exact fun h => (nomatch h)
        | some pos =>
          simp only []
          have hsh := shows_definitions (config := config) (checked := s.env.checked) (source := text) (pos := pos)
            (std := s.env.std) (ds := sp.definitions) h5 hn
          rcases hsh with ⟨x, _, _, txt, _, e⟩ | ⟨_, e⟩
          · rw [e]
            simp only [Resp.bind, getRange]
            cases s.position text (Spanned.offset text x.1.start) <;> cases s.position text (Spanned.offset text x.1.stop) <;>
              exact fun h => (nomatch h)
          · rw [e]; exact fun h => (nomatch h)

omit [DecidableEq Uri] in
theorem handleRequest_survives {P R : Type} (st : State Uri) (id : RequestId) (params : Option P) (handler : P → Resp R)
    (post : R → Reply) (h : ∀ p, handler p ≠ .panic) : (handleRequest st id params handler post).stop = none := by
  unfold handleRequest
  cases params with
  | none => rfl
  | some p =>
    simp only []
    cases hp : handler p with
    | ok r => rfl
    | error => rfl
    | panic => exact absurd hp (h p)

/-- No request stops the server. -/
theorem onRequest_survives {enc : Encoding} (s : Server Uri Json) (hp : PositionContract enc s.position) (st : State Uri)
    (hc : Consistent st.files) (hf : AllFit s.env st.files) (es : List (Event Json)) (id : RequestId) (method : String)
    (params : Json) : (onRequest s st es id method params).stop ≠ some .panicked := by
  rw [onRequest_eq]
  split
  · simp only [ne_eq, Option.some.injEq]
    induction es with
    | nil => exact fun h => (nomatch h)
    | cons e es ih =>
      unfold awaitExit
      split
      · rename_i h; cases h; exact ih
      · exact fun h => (nomatch h)
      · exact fun h => (nomatch h)
  split
  · rw [handleRequest_survives]
    · exact fun h => (nomatch h)
    · exact fun p => hover_survives s st.settings hc hf p.1 p.2
  split
  · rw [handleRequest_survives]
    · exact fun h => (nomatch h)
    · intro u
      cases hg : Lsp.get st.files u with
      | none => rw [C49_no_symbols _ _ _ _ _ (.inl hg)]; exact fun h => (nomatch h)
      | some f =>
        obtain ⟨text, rfl⟩ : ∃ t, f = createFile t := ⟨_, hc u f hg⟩
        obtain ⟨r, hr⟩ := C49_no_panic enc s.position hp s.env.std s.env.checked st.files u text hg (fit_validates (hf u _ hg))
        rw [hr]; exact fun h => (nomatch h)
  split
  · rw [handleRequest_survives]
    · exact fun h => (nomatch h)
    · intro u
      cases hg : Lsp.get st.files u with
      | none => rw [C39_no_tokens _ _ _ _ _ (.inl hg)]; exact fun h => (nomatch h)
      | some f =>
        obtain ⟨text, rfl⟩ : ∃ t, f = createFile t := ⟨_, hc u f hg⟩
        obtain ⟨r, hr⟩ := C39_no_panic enc s.position hp s.env.std s.env.checked st.files u text hg (fit_validates (hf u _ hg))
        rw [hr]; exact fun h => (nomatch h)
  · exact fun h => (nomatch h)

theorem fit_step {enc : Encoding} {env : Env} {offset : Text → Position → Option Nat} {d d' : Docs Uri} {fs fs' : Files Uri}
    {n : Notification Uri} (hs : Sends enc d n d') (ht : Tame enc env d n) (h : step offset fs n = .ok fs')
    (hsy : Synced d' fs') (hf : AllFit env fs) : AllFit env fs' := by
  have hfit := ht.2 d' hs
  intro v f hg
  have changed : ∀ u t, d' = d.set u (some t) → (v ≠ u → Lsp.get fs' v = Lsp.get fs v) → NumbersFit env f.content := by
    intro u t hd he
    by_cases e : v = u
    · subst e
      have hv : d' v = some t := by rw [hd]; simp [Docs.set]
      have := hsy.2 v t hv
      rw [hg] at this
      cases this
      exact hfit v t hv
    · rw [he e] at hg; exact hf v f hg
  cases hs with
  | «open» u t =>
    refine changed u t rfl fun e => ?_
    cases h
    unfold didOpen
    cases Lsp.get fs u with
    | none => exact get_insert_ne _ _ e
    | some g =>
      simp only []
      by_cases c : g.content = t
      · rw [if_pos c]
      · rw [if_neg c]; exact get_insert_ne _ _ e
  | change u t t' chs _ _ =>
    refine changed u t' rfl fun e => ?_
    have h : didChange offset fs u chs = .ok fs' := h
    unfold didChange at h
    split at h
    · cases h; exact get_insert_ne _ _ e
    · split at h
      · cases h; rfl
      · rename_i f _
        cases hu : updateFile (fun index rope => applyChanges offset index _ rope) f with
        | panic => rw [hu] at h; cases h
        | ok f' =>
          rw [hu] at h
          cases h
          rw [insert_remove, get_insert_ne _ _ e]
  | close u => cases h; exact hf v f hg
  | delete us _ => cases h; exact hf v f (get_filter_sub (p := fun w => !us.any (· = w)) hg)

/-- The invariant of a session: the history of the documents goes on from the documents that the client has now, and the
server has the same. -/
def Alive (enc : Encoding) (s : Server Uri Json) (last : Docs Uri) (st : State Uri) (xs : List (Exchange Json)) : Prop :=
  ∃ d, History enc (Tame enc s.env) d (documentNotes s.reader xs) last ∧ Synced d st.files ∧ AllFit s.env st.files

theorem alive_survives {enc : Encoding} (s : Server Uri Json) (ho : OffsetContract enc s.offset)
    (hp : PositionContract enc s.position) (hpick : PickContract s.env.pick) (hfail : FailureContract s.env.failure)
    {last : Docs Uri} {st : State Uri} {x : Exchange Json} {xs : List (Exchange Json)} (h : Alive enc s last st (x :: xs)) :
    ¬ Stops s st x.message := by
  obtain ⟨d, h1, h2, h3⟩ := h
  rintro (⟨id, method, params, _, h⟩ | ⟨note, hn, h⟩)
  · exact onRequest_survives s hp st h2.1 h3 [] id method params h
  · simp only [documentNotes, List.filterMap_cons, hn] at h1
    cases h1 with
    | @cons _ d1 _ _ _ hs ht _ =>
      obtain ⟨fs', hst, hsy⟩ := step_synced ho h2 hs ht.1
      have hfit := fit_step hs ht hst hsy h3
      have pub : ∀ u t, d1 u = some t → ∃ p, publish s.env s.position fs' u = .ok p := by
        intro u t hu
        obtain ⟨r, hr, _⟩ := C51_no_panic enc s.position hp s.env hpick hfail t u (hfit u _ (hsy.2 u t hu))
        exact ⟨_, publish_synced (hsy.2 u t hu) hr⟩
      cases hs with
      | «open» u t =>
        obtain ⟨p, hp⟩ := pub u t (by simp [Docs.set])
        simp only [stepPublish, hst, Lsp.Outcome.bind, hp] at h
        cases h
      | change u t t' chs _ _ =>
        obtain ⟨p, hp⟩ := pub u t' (by simp [Docs.set])
        simp only [stepPublish, hst, Lsp.Outcome.bind, hp] at h
        cases h
      | close u => simp only [stepPublish, hst, Lsp.Outcome.bind] at h; cases h
      | delete us _ => simp only [stepPublish, hst, Lsp.Outcome.bind] at h; cases h

theorem stepPublish_step {env : Env} {offset : Text → Position → Option Nat} {position : Text → Nat → Option Position}
    {fs fs' : Files Uri} {n : Notification Uri} {ps} (h : stepPublish env offset position fs n = .ok (fs', ps)) :
    step offset fs n = .ok fs' := by
  unfold stepPublish at h
  cases hs : step offset fs n with
  | panic => rw [hs] at h; cases h
  | ok g =>
    rw [hs] at h
    simp only [Lsp.Outcome.bind] at h
    have key : ∀ u, ((publish env position g u).bind fun p => Lsp.Outcome.ok (g, p)) = .ok (fs', ps) → g = fs' := by
      intro u hu
      cases hp : publish env position g u with
      | panic => rw [hp] at hu; cases hu
      | ok p => rw [hp] at hu; cases hu; rfl
    congr 1
    cases n with
    | didOpen u _ => exact key u h
    | didChange u _ => exact key u h
    | didClose _ => cases h; rfl
    | didDelete _ => cases h; rfl

theorem alive_step {enc : Encoding} (s : Server Uri Json) (ho : OffsetContract enc s.offset)
    {last : Docs Uri} {st st' : State Uri} {x : Exchange Json} {xs : List (Exchange Json)} {n : Nat} {out : List (Outgoing Uri)}
    (h : Alive enc s last st (x :: xs)) (he : Exchanged s n st x out st') : Alive enc s last st' xs := by
  obtain ⟨d, h1, h2, h3⟩ := h
  cases hn : documentNote s.reader x.message with
  | none =>
    simp only [documentNotes, List.filterMap_cons, hn] at h1
    rw [← (he.unnoted hn).1] at h2 h3
    exact ⟨d, h1, h2, h3⟩
  | some note =>
    simp only [documentNotes, List.filterMap_cons, hn] at h1
    cases h1 with
    | @cons _ d1 _ _ _ hs ht hh =>
      obtain ⟨fs', hst, hsy⟩ := step_synced ho h2 hs ht.1
      have hst' := stepPublish_step (he.noted note hn)
      rw [hst] at hst'
      cases hst'
      exact ⟨d1, hh, hsy, fit_step hs ht hst hsy h3⟩

/-- Sessions of clients that answer the questions of the server before they send anything else, do not ask it to stop and
send orderly notifications (see C46). `first` and `second` are the answers to the questions at the start, `xs` are the
messages with pauses before and answers behind them, `docs` are the documents of the client in the end. -/
structure Polite (enc : Encoding) (s : Server Uri Json) (xs : List (Exchange Json)) (docs : Docs Uri) : Prop where
  prompt : ∀ x ∈ xs, Prompt s.reader x
  goesOn : NoShutdown xs
  documents : History enc (Tame enc s.env) noDocs (documentNotes s.reader xs) docs

/-- What the server relies on: the crates for positions and for errors of the parser. -/
structure Works (enc : Encoding) (s : Server Uri Json) : Prop where
  offset : OffsetContract enc s.offset
  position : PositionContract enc s.position
  pick : PickContract s.env.pick
  failure : FailureContract s.env.failure

/-- After the session, whatever follows: the server is in a state that fits the session. -/
theorem session_run {enc : Encoding} {s : Server Uri Json} (hw : Works enc s) (first second : Option Json × Option Json)
    {xs : List (Exchange Json)} {docs : Docs Uri} (hx : Polite enc s xs docs) :
    ∃ out st, (∀ rest, serve s (sessionEvents first second xs ++ rest) =
        (out ++ (mainLoop s 0 st rest).1, (mainLoop s 0 st rest).2)) ∧
      (responses out).map Prod.fst = (requests (xs.map fun x => .message x.message)).map Prod.fst ∧
      st.settings = settingsAfter s.reader (settingsFrom s.reader ⟨true, true⟩ first) xs ∧
      Synced docs st.files ∧ AllFit s.env st.files ∧ UpToDate s.env s.position docs (diagnostics out) := by
  have h0 : Synced (noDocs : Docs Uri) ([] : Files Uri) := ⟨fun _ _ h => (nomatch h), fun _ _ h => (nomatch h)⟩
  obtain ⟨out, st, h1, h2, ⟨d, h3, h4, h5⟩⟩ := exchanges_run s (Alive enc s docs)
    (fun st x xs h => alive_survives s hw.offset hw.position hw.pick hw.failure h)
    (fun st x xs n out st' h he => alive_step s hw.offset h he) xs 2
    ⟨BitVec.ofNat 32 2, [], settingsFrom s.reader ⟨true, true⟩ first⟩ rfl hx.prompt hx.goesOn
    ⟨noDocs, hx.documents, h0, fun _ _ h => (nomatch h)⟩
  cases h3
  refine ⟨[.request (.inl 1) configurationMethod, .request (.inl 2) registerMethod] ++ out, st, fun rest => ?_, ?_, h2.settings, h4, h5, ?_⟩
  · have := settings_answer s.reader 0 first ⟨true, true⟩ (answerEvents 1 [second] ++ exchangeEvents 2 xs ++ rest)
    have e : ∀ o : List (Outgoing Uri), [.request (.inl 1) configurationMethod, .request (.inl 2) registerMethod] ++ out ++ o =
      .request (.inl 1) configurationMethod :: .request (.inl 2) registerMethod :: (out ++ o) := fun _ => rfl
    rw [e, serve_eq, sessionEvents, List.append_assoc]
    have h1 := h1 rest
    rw [← this] at h1
    have e1 := congrArg Prod.fst h1
    have e2 := congrArg Prod.snd h1
    simp only at e1 e2
    rw [← e1, ← e2]
    rfl
  · rw [responses_append, List.map_append, h2.answered]; rfl
  · rw [diagnostics_append]
    obtain ⟨fs', qs, h6, _, h7⟩ := runPublish_ok hw.offset hw.position hw.pick hw.failure hx.documents (fs := []) (ps := []) h0
      (fun _ _ h => (nomatch h))
    rw [h2.files] at h6
    cases h6
    exact h7

/-- Every session of a polite client, of any length: the server runs until the connection is closed; every request is
answered, in order; and what the client shows for every open document is the diagnostic of its present text, or nothing if
it is a valid schema. Missing from the full claim: clients that send something else while the server waits for an answer
(see `C56_fails_first_document` and its neighbours), and what is missing in C46. -/
theorem C56_session_partial (enc : Encoding) (s : Server Uri Json) (hw : Works enc s) (first second : Option Json × Option Json)
    (xs : List (Exchange Json)) (docs : Docs Uri) (hx : Polite enc s xs docs) :
    ∃ out, serve s (sessionEvents first second xs) = (out, .closed) ∧
      (responses out).map Prod.fst = (requests (xs.map fun x => .message x.message)).map Prod.fst ∧
      ∀ u text, docs u = some text → ∃ r, shown (diagnostics out) u = some r.toList ∧
        diagnose s.env s.position text text u = .ok r ∧
        (r = none ↔ ∃ schema, Parse.parseSchema s.env.std text = some schema ∧ ValidSchema schema) := by
  obtain ⟨out, st, h1, h2, _, h4, h5, h6⟩ := session_run hw first second hx
  have h1 := h1 []
  rw [List.append_nil] at h1
  refine ⟨out, by rw [h1]; simp [mainLoop], h2, fun u text hu => ?_⟩
  obtain ⟨r, h7, h8⟩ := h6 u text hu
  obtain ⟨r', h9, h10⟩ := C51_no_panic enc s.position hw.position s.env hw.pick hw.failure text u (h5 u _ (h4.2 u text hu))
  rw [h7] at h9
  cases h9
  exact ⟨r, h8, h7, h10⟩

/-- The next request after the session, answered from the documents of the client. -/
theorem session_request {enc : Encoding} {s : Server Uri Json} (hw : Works enc s) (first second : Option Json × Option Json)
    {xs : List (Exchange Json)} {docs : Docs Uri} (hx : Polite enc s xs docs) (id : RequestId) (method : String) (params : Json)
    (hm : method ≠ "shutdown") :
    ∃ out st, Synced docs st.files ∧ st.settings = settingsAfter s.reader (settingsFrom s.reader ⟨true, true⟩ first) xs ∧
      serve s (sessionEvents first second xs ++ [.message (.request id method params)]) =
        (out ++ (onRequest s st [] id method params).out, .closed) := by
  obtain ⟨out, st, h1, _, h3, h4, h5, _⟩ := session_run hw first second hx
  refine ⟨out, st, h4, h3, ?_⟩
  rw [h1, mainLoop_message]
  simp only [onMessage]
  have h6 := onRequest_survives s hw.position st h4.1 h5 [] id method params
  rcases (onRequest_out s st [] id method params).1 with ⟨_, h7⟩ | ⟨_, _, _, h7⟩
  · exact absurd h7 h6
  · rw [h7 hm]
    have hn : ∀ k (st : State Uri), mainLoop s k st ([] : List (Event Json)) = ([], .closed) := fun k st => by cases k <;> rfl
    simp only [hn, List.append_nil]

/-- Semantic tokens at any time in such a session: the last message of the server holds the tokens of the client's text. -/
theorem C56_tokens_partial (enc : Encoding) (s : Server Uri Json) (hw : Works enc s) (first second : Option Json × Option Json)
    (xs : List (Exchange Json)) (docs : Docs Uri) (hx : Polite enc s xs docs) (id : RequestId) (params : Json) (u : Uri)
    (hr : s.reader.semanticTokens params = some u) (text : Text) (hd : docs u = some text) (schema : Schema)
    (h : Parse.parseSchema s.env.std text = some schema) (hv : Compiler.validateSchema s.env.checked schema = .ok) :
    ∃ out data, serve s (sessionEvents first second xs ++ [.message (.request id "textDocument/semanticTokens/full" params)]) =
        (out ++ [.response id (.tokens data)], .closed) ∧
      Highlighted enc [] text (decode tokenTypes tokenModifiers ⟨0, 0⟩ data) (definitionsItems s.env.std schema.definitions) := by
  obtain ⟨out, st, h1, _, h2⟩ := session_request hw first second hx id "textDocument/semanticTokens/full" params (by decide)
  obtain ⟨data, h3, h4⟩ := C39_semantic_tokens enc s.position hw.position s.env.std s.env.checked st.files u text schema
    (h1.2 u text hd) h hv
  refine ⟨out, data, ?_, h4⟩
  rw [h2]
  simp only [onRequest, handleRequest, hr, h3]
  rfl

/-- Document symbols at any time in such a session. -/
theorem C56_symbols_partial (enc : Encoding) (s : Server Uri Json) (hw : Works enc s) (first second : Option Json × Option Json)
    (xs : List (Exchange Json)) (docs : Docs Uri) (hx : Polite enc s xs docs) (id : RequestId) (params : Json) (u : Uri)
    (hr : s.reader.documentSymbol params = some u) (text : Text) (hd : docs u = some text) (schema : Schema)
    (h : Parse.parseSchema s.env.std text = some schema) (hv : Compiler.validateSchema s.env.checked schema = .ok) :
    ∃ out symbols places,
      serve s (sessionEvents first second xs ++ [.message (.request id "textDocument/documentSymbol" params)]) =
        (out ++ [.response id (.symbols symbols)], .closed) ∧
      Placed [] text places (definitionsParts s.env.std schema.definitions) ∧
      shapes symbols = outlineDefinitions schema.definitions ∧
      entriesOf symbols =
        (places.zip (definitionsParts s.env.std schema.definitions)).filterMap fun x => entryOf enc x.1 x.2 := by
  obtain ⟨out, st, h1, _, h2⟩ := session_request hw first second hx id "textDocument/documentSymbol" params (by decide)
  obtain ⟨symbols, places, h3, h4⟩ := C49_document_symbols enc s.position hw.position s.env.std s.env.checked st.files u text
    schema (h1.2 u text hd) h hv
  refine ⟨out, symbols, places, ?_, h4⟩
  rw [h2]
  simp only [onRequest, handleRequest, hr, h3]
  rfl

/-- Hovering at any time in such a session, with the settings that the client told last. -/
theorem C56_hover_partial (enc : Encoding) (s : Server Uri Json) (hw : Works enc s) (first second : Option Json × Option Json)
    (xs : List (Exchange Json)) (docs : Docs Uri) (hx : Polite enc s xs docs) (id : RequestId) (params : Json) (u : Uri)
    (a b : Text) (hr : s.reader.hover params = some (u, posOf enc a)) (hd : docs u = some (a ++ b)) (schema : Schema)
    (h : Parse.parseSchema s.env.std (a ++ b) = some schema) (hv : Compiler.validateSchema s.env.checked schema = .ok) :
    ∃ out r places,
      serve s (sessionEvents first second xs ++ [.message (.request id "textDocument/hover" params)]) =
        (out ++ [.response id (.hover r)], .closed) ∧
      Placed [] (a ++ b) places (definitionsParts s.env.std schema.definitions) ∧
      HoverAt enc (settingsAfter s.reader (settingsFrom s.reader ⟨true, true⟩ first) xs) s.env.checked places
        (definitionsParts s.env.std schema.definitions) a (.ok r) := by
  obtain ⟨out, st, h1, h5, h2⟩ := session_request hw first second hx id "textDocument/hover" params (by decide)
  obtain ⟨places, h3, h4⟩ := C50_hover enc s.offset hw.offset s.position hw.position s.env.std s.env.checked st.settings st.files
    u a b schema (h1.2 u _ hd) h hv
  obtain ⟨r, hr'⟩ : ∃ r, hover s.env.std s.env.checked st.settings s.offset s.position st.files u (posOf enc a) = .ok r := by
    rcases h4 with ⟨_, _, _, _, _, _, _, _, e⟩ | ⟨_, e⟩ <;> exact ⟨_, e⟩
  rw [hr', h5] at h4
  refine ⟨out, r, places, ?_, h3, h4⟩
  rw [h2]
  simp only [onRequest, handleRequest, hr, hr']

/-- When such a client asks the server to stop and then sends `exit`, the server stops without an error. -/
theorem C56_exit_partial (enc : Encoding) (s : Server Uri Json) (hw : Works enc s) (first second : Option Json × Option Json)
    (xs : List (Exchange Json)) (docs : Docs Uri) (hx : Polite enc s xs docs) (id : RequestId) (params params' : Json)
    (more : List (Event Json)) :
    ∃ out, serve s (sessionEvents first second xs ++
        .message (.request id "shutdown" params) :: .message (.notification "exit" params') :: more) =
      (out ++ [.response id .null], .shutdown) := by
  obtain ⟨out, st, h1, _⟩ := session_run hw first second hx
  exact ⟨out, by rw [h1, mainLoop_message]; rfl⟩

omit [DecidableEq Uri] in
/-- The settings change only by an answer to the question for them: a response with the id of that question and no error,
which is a list with one element, the settings. -/
theorem C56_settings_from_answer (reader : Reader Uri Json) (st : State Uri) (es : List (Event Json)) (t : Turn Uri)
    (ht : t = reloadSettings reader st es ∨ t = initialized reader st es) :
    t.state.settings = st.settings ∨
      ∃ result x rest, es = .message (.response (.inl (st.nextId + 1)) result none) :: rest ∧
        t.out.head? = some (.request (.inl (st.nextId + 1)) "workspace/configuration") ∧
        reader.list (result.getD reader.null) = some [x] ∧ reader.settings x = some t.state.settings := by
  have key : ∀ c, c = (readSettings reader (receiveAnswer reader (st.nextId + 1) es)).getD st.settings → c = st.settings ∨
      ∃ result x rest, es = .message (.response (.inl (st.nextId + 1)) result none) :: rest ∧
        reader.list (result.getD reader.null) = some [x] ∧ reader.settings x = some c := by
    intro c hc
    unfold receiveAnswer at hc
    split at hc
    · rename_i rid result rest
      by_cases h : rid = .inl (st.nextId + 1)
      · rw [if_pos h] at hc
        simp only [readSettings] at hc
        split at hc
        · rename_i x hx
          cases hs : reader.settings x with
          | none => rw [hs] at hc; exact .inl hc
          | some c' =>
            rw [hs] at hc
            exact .inr ⟨result, x, rest, by rw [h], hx, by rw [hc, Option.getD_some, hs]⟩
        · exact .inl hc
      · rw [if_neg h] at hc; exact .inl hc
    · exact .inl hc
  rcases ht with rfl | rfl
  · rw [reloadSettings_eq]
    exact (key _ rfl).imp (fun h => h) fun ⟨a, b, c, h1, h2, h3⟩ => ⟨a, b, c, h1, rfl, h2, h3⟩
  · rw [initialized_eq]
    exact (key _ rfl).imp (fun h => h) fun ⟨a, b, c, h1, h2, h3⟩ => ⟨a, b, c, h1, rfl, h2, h3⟩

/-! ### What goes wrong when the client does not wait -/

/-- The client opens a document right after the start, before its answers to the questions of the server: the notification is
taken as an answer and lost, for every document and every client. There are no diagnostics, and a request for the document has
an empty answer. -/
theorem C56_fails_first_document (s : Server Uri Json) (doc : Json) (a b : Option Json × Option Json) (id : RequestId)
    (params : Json) (u : Uri) (hr : s.reader.semanticTokens params = some u) :
    serve s (.message (.notification "textDocument/didOpen" doc) :: answerEvents 0 [a, b] ++
      [.message (.request id "textDocument/semanticTokens/full" params)]) =
    ([.request (.inl 1) "workspace/configuration", .request (.inl 2) "client/registerCapability",
      .response id (.tokens [])], .closed) := by
  simp only [serve_eq, answerEvents, List.cons_append, List.nil_append, List.drop_succ_cons, List.drop_zero, mainLoop_response]
  simp only [mainLoop_message, onMessage, onRequest, hr, handleRequest, semanticTokens, Lsp.get]
  rfl

/-- A request that arrives while the server waits for an answer is never answered. -/
theorem C56_fails_request (s : Server Uri Json) (a b : Option Json × Option Json) (id : RequestId) (method : String)
    (params : Json) (more : List Bool) :
    responses (serve s (.message (.request id method params) :: answerEvents 0 [a, b] ++ more.map .pause)).1 = [] := by
  have hn : ∀ (st : State Uri), mainLoop s 0 st (more.map .pause) = ([], .closed) := fun st => by
    have := mainLoop_pauses s st [] more
    rw [List.append_nil] at this
    rw [this]; rfl
  simp only [serve_eq, answerEvents, List.cons_append, List.nil_append, List.drop_succ_cons, List.drop_zero, mainLoop_response, hn]
  rfl

omit [DecidableEq Uri] in
/-- A pause while the server waits for an answer: it gives up, and then takes the late answer for nothing. The settings stay the
ones before. -/
theorem C56_fails_late_settings (s : Server Uri Json) (p : Bool) (es : List (Event Json)) (a : Option Json × Option Json) :
    (initialized s.reader (State.new : State Uri) (.pause p :: answerEvents 0 [a] ++ es)).state.settings = ⟨true, true⟩ := by
  rw [initialized_eq]; rfl

/-- At any time in a session: the configuration changes, the server asks for it, and before the client answers, the user types: any
message `m`, say a change of the document, is lost. A later request is answered from the text before it. -/
theorem C56_fails_lost_message (enc : Encoding) (s : Server Uri Json) (hw : Works enc s) (first second : Option Json × Option Json)
    (xs : List (Exchange Json)) (docs : Docs Uri) (hx : Polite enc s xs docs) (config : Json)
    (hc : s.reader.didChangeConfiguration config ≠ none) (m : Incoming Json) (hm : ∀ id r e, m ≠ .response id r e)
    (rid : RequestId) (r e : Option Json) (id : RequestId) (params : Json) (u : Uri)
    (hr : s.reader.semanticTokens params = some u) (text : Text) (hd : docs u = some text) (schema : Schema)
    (h : Parse.parseSchema s.env.std text = some schema) (hv : Compiler.validateSchema s.env.checked schema = .ok) :
    ∃ out n data, serve s (sessionEvents first second xs ++ [.message (.notification "workspace/didChangeConfiguration" config),
        .message m, .message (.response rid r e), .message (.request id "textDocument/semanticTokens/full" params)]) =
        (out ++ [.request n "workspace/configuration", .response id (.tokens data)], .closed) ∧
      Highlighted enc [] text (decode tokenTypes tokenModifiers ⟨0, 0⟩ data) (definitionsItems s.env.std schema.definitions) := by
  obtain ⟨out, st, h1, _, _, h4, _⟩ := session_run hw first second hx
  obtain ⟨data, h5, h6⟩ := C39_semantic_tokens enc s.position hw.position s.env.std s.env.checked st.files u text schema
    (h4.2 u text hd) h hv
  refine ⟨out, .inl (st.nextId + 1), data, ?_, h6⟩
  rw [h1]
  have hlost : ∀ es, receiveAnswer s.reader (st.nextId + 1) (.message m :: es) = none := by
    intro es
    cases m with
    | response a b c => exact absurd rfl (hm a b c)
    | request _ _ _ => rfl
    | notification _ _ => rfl
  cases hcc : s.reader.didChangeConfiguration config with
  | none => exact absurd hcc hc
  | some _ =>
    rw [mainLoop_message]
    simp only [onMessage, onNotification_eq, hcc, Option.isSome_some, and_true, String.reduceEq, false_and, if_false, if_true,
      reloadSettings_eq, hlost, readSettings, Option.getD_none, mainLoop_skip s _ 1, List.drop_succ_cons, List.drop_zero,
      mainLoop_response]
    simp only [mainLoop_message, onMessage, onRequest, hr, handleRequest, h5, mainLoop, Option.getD_some]
    rfl

/-! ### An example -/

/-- JSON values of a toy client. -/
inductive Toy where
  | null
  | doc (u : Nat) (t : Text)
  | edit (u : Nat) (cs : List Change)
  | place (u : Nat) (p : Position)
  | settings (c : HoverConfig)
  | list (l : List Toy)

/-- How they are read. -/
def toyReader : Reader Nat Toy where
  null := .null
  hover | .place u p => some (u, p) | _ => none
  documentSymbol | .place u _ => some u | _ => none
  semanticTokens | .place u _ => some u | _ => none
  initialized _ := some ()
  didOpen | .doc u t => some (u, t) | _ => none
  didChange | .edit u cs => some (u, cs) | _ => none
  didClose | .place u _ => some u | _ => none
  didDelete _ := none
  didChangeConfiguration _ := some ()
  list | .list l => some l | _ => none
  settings | .settings c => some c | _ => none

/-- A server for them. -/
def toyServer : Server Nat Toy := ⟨toyReader, C51_env, searchOffset .utf16, searchPosition .utf16⟩

theorem toy_works : Works .utf16 toyServer :=
  ⟨searchOffset_contract _, searchPosition_contract _, C51_pick, C51_failure⟩

/-- A session: a document that is not valid is opened; after a pause the settings change, and the client answers the question for
them; the document is replaced by a valid one; its tokens are asked for. -/
def toySession : List (Exchange Toy) :=
  [⟨[], .notification "textDocument/didOpen" (.doc 7 C51_text), []⟩,
   ⟨[false, true], .notification "workspace/didChangeConfiguration" .null, [(some (.list [.settings ⟨false, true⟩]), none)]⟩,
   ⟨[], .notification "textDocument/didChange" (.edit 7 [⟨none, C50_text⟩]), []⟩,
   ⟨[], .request (.inr "x") "textDocument/semanticTokens/full" (.place 7 ⟨0, 0⟩), []⟩,
   ⟨[], .request (.inl 4) "textDocument/definition" .null, []⟩]

theorem fits_of {text : Text} (h : ((Parse.parseSchema C39_std text).any fun s => (Simplify.simplifySchema true s).isSome) = true) :
    NumbersFit C51_env text := by
  intro hc schema hs
  have hs : Parse.parseSchema C39_std text = some schema := hs
  rw [hs] at h
  refine Classical.byContradiction fun hn => ?_
  have := C31_simplify_panics true schema (fun h => hn (h rfl))
  rw [Option.any_some, this] at h
  cases h

theorem toy_fits : NumbersFit C51_env C51_text ∧ NumbersFit C51_env C50_text :=
  ⟨fits_of (by decide +kernel), fits_of (by decide +kernel)⟩

/-- The session is one of those that the theorems above speak about. -/
theorem C56_example : Works .utf16 toyServer ∧
    ∃ docs, docs 7 = some C50_text ∧ Polite .utf16 toyServer toySession docs ∧
      settingsAfter toyReader ⟨true, true⟩ toySession = ⟨false, true⟩ ∧
      (requests (toySession.map fun x => .message x.message)).map Prod.fst = [.inr "x", .inl 4] := by
  have hnotes : documentNotes toyReader toySession = [.didOpen 7 C51_text, .didChange 7 [⟨none, C50_text⟩]] := by
    simp [documentNotes, toySession, documentNote, toyReader]
  refine ⟨toy_works, (Docs.set (Docs.set noDocs 7 (some C51_text)) 7 (some C50_text)), by simp [Docs.set], ⟨?_, ?_, ?_⟩, rfl, rfl⟩
  · intro x hx
    simp only [toySession, List.mem_cons, List.not_mem_nil, or_false] at hx
    rcases hx with rfl | rfl | rfl | rfl | rfl <;> simp [Prompt, questionsOn, toyServer, toyReader]
  · intro x hx id params
    simp only [toySession, List.mem_cons, List.not_mem_nil, or_false] at hx
    rcases hx with rfl | rfl | rfl | rfl | rfl <;> simp
  · show History _ _ _ (documentNotes toyReader toySession) _
    rw [hnotes]
    have hfit : ∀ {d : Docs Nat} {t : Text}, (∀ u t, d u = some t → NumbersFit C51_env t) → NumbersFit C51_env t →
        ∀ u t', d.set 7 (some t) u = some t' → NumbersFit C51_env t' := by
      intro d t h1 h2 u t' hu
      unfold Docs.set at hu
      by_cases e : u = 7
      · rw [if_pos e] at hu; cases hu; exact h2
      · rw [if_neg e] at hu; exact h1 u t' hu
    have h1 := hfit (d := noDocs) (t := C51_text) (fun _ _ h => (nomatch h)) toy_fits.1
    refine .cons (.open noDocs 7 _) ⟨trivial, ?_⟩ (.cons (.change _ 7 C51_text _ _ ?_ ⟨_, .inl ⟨rfl, rfl⟩, rfl⟩) ⟨?_, ?_⟩ (.nil _))
    · intro d' hs
      cases hs
      exact h1
    · simp [Docs.set]
    · intro t ht
      simp only [Docs.set, if_true] at ht
      cases ht
      exact ⟨by decide, .inl ⟨_, rfl⟩⟩
    · intro d' hs
      cases hs with
      | change _ t t' _ _ ha =>
        obtain ⟨t1, hap, rfl⟩ := ha
        rcases hap with ⟨_, rfl⟩ | ⟨_, _, _, _, hr, _⟩
        · exact hfit h1 toy_fits.2
        · cases hr

end Mabo.Props
