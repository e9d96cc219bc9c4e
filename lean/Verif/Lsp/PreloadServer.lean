import Verif.Lsp.PreloadLemmas
import Verif.Lsp.ServerLemmas
/-! The server with the files that it loads when it starts, and without. -/
namespace Mabo.Lsp
open Mabo.Preload

variable {Json : Type}

/-- The URIs in the parameters of a message have a scheme, however they are read. -/
structure Schemed (r : Reader Text Json) (j : Json) : Prop where
  hover : ∀ p, r.hover j = some p → HasScheme p.1
  documentSymbol : ∀ u, r.documentSymbol j = some u → HasScheme u
  semanticTokens : ∀ u, r.semanticTokens j = some u → HasScheme u
  didOpen : ∀ p, r.didOpen j = some p → HasScheme p.1
  didChange : ∀ p, r.didChange j = some p → HasScheme p.1
  didClose : ∀ u, r.didClose j = some u → HasScheme u
  didDelete : ∀ us, r.didDelete j = some us → ∀ u ∈ us, HasScheme u

/-- The parameters in a message. -/
def parameters : Event Json → List Json
  | .message (.request _ _ params) => [params]
  | .message (.notification _ params) => [params]
  | .message (.response _ _ _) => []
  | .pause _ => []

/-- States that differ in documents without schemes only. -/
inductive Near (fs0 : Files Text) : State Text → State Text → Prop where
  | mk {n : BitVec 32} {fs fs' : Files Text} {c : HoverConfig} : Beside fs0 fs fs' → Near fs0 ⟨n, fs, c⟩ ⟨n, fs', c⟩

/-- The same effects. -/
structure NearTurn (fs0 : Files Text) (t t' : Turn Text) : Prop where
  out : t'.out = t.out
  read : t'.read = t.read
  stop : t'.stop = t.stop
  state : Near fs0 t.state t'.state

variable {fs0 : Files Text}

theorem handleRequest_near {st st' : State Text} (h : Near fs0 st st') (id : RequestId) {P R : Type} {params : Option P}
    {f g : P → Resp R} (post : R → Reply) (hp : ∀ p, params = some p → g p = f p) :
    NearTurn fs0 (handleRequest st id params f post) (handleRequest st' id params g post) := by
  unfold handleRequest
  cases params with
  | none => exact ⟨rfl, rfl, rfl, h⟩
  | some p =>
    simp only []
    rw [hp p rfl]
    cases f p <;> exact ⟨rfl, rfl, rfl, h⟩

theorem onRequest_near (s : Server Text Json) {st st' : State Text} (h : Near fs0 st st') (es : List (Event Json)) (id : RequestId)
    (method : String) (params : Json) (hp : Schemed s.reader params) :
    NearTurn fs0 (onRequest s st es id method params) (onRequest s st' es id method params) := by
  cases h with
  | mk h =>
    unfold onRequest
    split
    · exact ⟨rfl, rfl, rfl, .mk h⟩
    · refine handleRequest_near (.mk h) id _ fun p hpp => ?_
      unfold hover
      simp only [h.same _ (hp.hover p hpp)]
    · refine handleRequest_near (.mk h) id _ fun p hpp => ?_
      unfold documentSymbol
      simp only [h.same _ (hp.documentSymbol p hpp)]
    · refine handleRequest_near (.mk h) id _ fun p hpp => ?_
      unfold semanticTokens
      simp only [h.same _ (hp.semanticTokens p hpp)]
    · exact ⟨rfl, rfl, rfl, .mk h⟩

theorem publish_near {env : Env} {position : Text → Nat → Option Position} {fs fs' : Files Text} (h : Beside fs0 fs fs') {u : Text}
    (hu : HasScheme u) : publish env position fs' u = publish env position fs u := by
  unfold publish
  rw [h.same u hu]

theorem handleDocument_near (s : Server Text Json) {st st' : State Text} (h : Near fs0 st st') {n : Option (Notification Text)}
    (hn : ∀ m, n = some m → ∀ u ∈ mentions m, HasScheme u) : NearTurn fs0 (handleDocument s st n) (handleDocument s st' n) := by
  cases n with
  | none => exact ⟨rfl, rfl, rfl, h⟩
  | some n =>
    cases h with
    | mk h =>
      have hm := hn n rfl
      simp only [handleDocument, stepPublish]
      rcases step_beside (offset := s.offset) h hm with ⟨a, b, ha, hb, hab⟩ | ⟨ha, hb⟩
      · rw [ha, hb]
        simp only [Outcome.bind]
        cases n with
        | didOpen u _ =>
          simp only [publish_near hab (hm u (by simp [mentions]))]
          cases publish s.env s.position a u with
          | ok p => exact ⟨rfl, rfl, rfl, .mk hab⟩
          | panic => exact ⟨rfl, rfl, rfl, .mk h⟩
        | didChange u _ =>
          simp only [publish_near hab (hm u (by simp [mentions]))]
          cases publish s.env s.position a u with
          | ok p => exact ⟨rfl, rfl, rfl, .mk hab⟩
          | panic => exact ⟨rfl, rfl, rfl, .mk h⟩
        | didClose _ => exact ⟨rfl, rfl, rfl, .mk hab⟩
        | didDelete _ => exact ⟨rfl, rfl, rfl, .mk hab⟩
      · rw [ha, hb]
        exact ⟨rfl, rfl, rfl, .mk h⟩

theorem reloadSettings_near (r : Reader Text Json) {st st' : State Text} (h : Near fs0 st st') (es : List (Event Json)) :
    NearTurn fs0 (reloadSettings r st es) (reloadSettings r st' es) := by
  cases h with
  | mk h =>
    unfold reloadSettings sendRequest
    simp only []
    split <;> exact ⟨rfl, rfl, rfl, .mk h⟩

theorem initialized_near (r : Reader Text Json) {st st' : State Text} (h : Near fs0 st st') (es : List (Event Json)) :
    NearTurn fs0 (initialized r st es) (initialized r st' es) := by
  have := reloadSettings_near r h es
  unfold initialized
  generalize reloadSettings r st es = t at this ⊢
  generalize reloadSettings r st' es = t' at this ⊢
  obtain ⟨h1, h2, h3, h4⟩ := this
  obtain ⟨o, a, _, _⟩ := t
  obtain ⟨o', a', _, _⟩ := t'
  simp only at h1 h4
  subst h1
  cases h4 with
  | mk h4 => exact ⟨rfl, rfl, rfl, .mk h4⟩

theorem onNotification_near (s : Server Text Json) {st st' : State Text} (h : Near fs0 st st') (es : List (Event Json))
    (method : String) (params : Json) (hp : Schemed s.reader params) :
    NearTurn fs0 (onNotification s st es method params) (onNotification s st' es method params) := by
  unfold onNotification
  split
  · split
    · exact ⟨rfl, rfl, rfl, h⟩
    · exact initialized_near s.reader h es
  · refine handleDocument_near s h fun m hm => ?_
    obtain ⟨p, hr, rfl⟩ := Option.map_eq_some_iff.1 hm
    simpa [mentions] using hp.didOpen p hr
  · refine handleDocument_near s h fun m hm => ?_
    obtain ⟨p, hr, rfl⟩ := Option.map_eq_some_iff.1 hm
    simpa [mentions] using hp.didChange p hr
  · refine handleDocument_near s h fun m hm => ?_
    obtain ⟨p, hr, rfl⟩ := Option.map_eq_some_iff.1 hm
    simpa [mentions] using hp.didClose p hr
  · refine handleDocument_near s h fun m hm => ?_
    obtain ⟨p, hr, rfl⟩ := Option.map_eq_some_iff.1 hm
    simpa [mentions] using hp.didDelete p hr
  · split
    · exact ⟨rfl, rfl, rfl, h⟩
    · exact reloadSettings_near s.reader h es
  · exact ⟨rfl, rfl, rfl, h⟩

theorem onMessage_near (s : Server Text Json) {st st' : State Text} (h : Near fs0 st st') (es : List (Event Json))
    (m : Incoming Json) (hp : ∀ j ∈ parameters (.message m), Schemed s.reader j) :
    NearTurn fs0 (onMessage s st es m) (onMessage s st' es m) := by
  cases m with
  | request id method params => exact onRequest_near s h es id method params (hp _ (by simp [parameters]))
  | response _ _ _ => exact ⟨rfl, rfl, rfl, h⟩
  | notification method params => exact onNotification_near s h es method params (hp _ (by simp [parameters]))

theorem mainLoop_near (s : Server Text Json) : ∀ (es : List (Event Json)) (k : Nat) {st st' : State Text}, Near fs0 st st' →
    (∀ e ∈ es, ∀ j ∈ parameters e, Schemed s.reader j) → mainLoop s k st' es = mainLoop s k st es
  | [], k, _, _, _, _ => by cases k <;> rfl
  | e :: es, k + 1, _, _, h, hp => by
    rw [mainLoop, mainLoop]
    exact mainLoop_near s es k h fun e' he' => hp e' (List.mem_cons_of_mem _ he')
  | .pause _ :: es, 0, _, _, h, hp => by
    rw [mainLoop, mainLoop]
    exact mainLoop_near s es 0 h fun e' he' => hp e' (List.mem_cons_of_mem _ he')
  | .message m :: es, 0, st, st', h, hp => by
    rw [mainLoop, mainLoop]
    have ht := onMessage_near s h es m (hp _ (List.mem_cons_self ..))
    generalize onMessage s st es m = t at ht ⊢
    generalize onMessage s st' es m = t' at ht ⊢
    obtain ⟨o, a, r, c⟩ := t
    obtain ⟨o', a', r', c'⟩ := t'
    obtain ⟨h1, h2, h3, h4⟩ := ht
    simp only at h1 h2 h3 h4
    subst h1 h2 h3
    cases c' with
    | some _ => rfl
    | none =>
      simp only []
      rw [mainLoop_near s es r' h4 fun e' he' => hp e' (List.mem_cons_of_mem _ he')]

/-- `main`, main.rs:41-59: as `serve`, but with the documents that `initialize` has loaded. -/
def serveWith (s : Server Text Json) (loaded : Files Text) (es : List (Event Json)) : List (Outgoing Text) × End :=
  let t := initialized s.reader { (State.new : State Text) with files := loaded } es
  let (later, e) := mainLoop s t.read t.state es
  (t.out ++ later, e)

theorem serveWith_near (s : Server Text Json) {loaded : Files Text} (h : Beside loaded [] loaded) (es : List (Event Json))
    (hp : ∀ e ∈ es, ∀ j ∈ parameters e, Schemed s.reader j) : serveWith s loaded es = serve s es := by
  have h0 : Near loaded (State.new : State Text) { (State.new : State Text) with files := loaded } := .mk h
  have ht := initialized_near s.reader h0 es
  simp only [serveWith, serve]
  rw [ht.out, ht.read, mainLoop_near s es _ ht.state hp]

end Mabo.Lsp
