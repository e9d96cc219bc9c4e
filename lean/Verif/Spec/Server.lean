import Verif.Lsp.Server
/-!
What a session of the language server looks like from outside: requests and their responses, and clients that answer the
questions of the server before they send anything else.
-/
namespace Mabo.Spec
open Mabo.Lsp

variable {Uri Json : Type}

/-- The requests among the events. -/
def requests : List (Event Json) → List (RequestId × String × Json)
  | [] => []
  | .message (.request id method params) :: es => (id, method, params) :: requests es
  | _ :: es => requests es

/-- The responses among the messages sent. -/
def responses : List (Outgoing Uri) → List (RequestId × Reply)
  | [] => []
  | .response id r :: os => (id, r) :: responses os
  | _ :: os => responses os

/-- The questions among the messages sent: requests of the server to the client. -/
def questions : List (Outgoing Uri) → List (RequestId × String)
  | [] => []
  | .request id m :: os => (id, m) :: questions os
  | _ :: os => questions os

/-- The diagnostics among the messages sent. -/
def diagnostics : List (Outgoing Uri) → List (Published Uri)
  | [] => []
  | .diagnostics p :: os => p :: diagnostics os
  | _ :: os => diagnostics os

/-- A response that fits a request: the same id, `MethodNotFound` exactly for methods that are not supported,
`InvalidParams` exactly for parameters that are not those of the method, otherwise a result of the kind of the method or
`InternalError`. -/
def Fits (reader : Reader Uri Json) (q : RequestId × String × Json) (a : RequestId × Reply) : Prop :=
  a.1 = q.1 ∧
    if q.2.1 = "shutdown" then a.2 = .null
    else if q.2.1 = "textDocument/hover" then
      match reader.hover q.2.2 with
      | none => a.2 = .invalidParams
      | some _ => a.2 = .internalError ∨ ∃ r, a.2 = .hover r
    else if q.2.1 = "textDocument/documentSymbol" then
      match reader.documentSymbol q.2.2 with
      | none => a.2 = .invalidParams
      | some _ => a.2 = .internalError ∨ ∃ r, a.2 = .symbols r
    else if q.2.1 = "textDocument/semanticTokens/full" then
      match reader.semanticTokens q.2.2 with
      | none => a.2 = .invalidParams
      | some _ => a.2 = .internalError ∨ ∃ r, a.2 = .tokens r
    else a.2 = .methodNotFound

/-- The responses answer some of the requests, in the order of the requests, each at most once. -/
inductive Answers (reader : Reader Uri Json) : List (RequestId × String × Json) → List (RequestId × Reply) → Prop
  | nil : Answers reader [] []
  | skip {q qs as} : Answers reader qs as → Answers reader (q :: qs) as
  | answer {q qs a as} : Fits reader q a → Answers reader qs as → Answers reader (q :: qs) (a :: as)

/-! ### Clients that answer at once -/

/-- How many questions the server asks because of a message: two when it is told that the client is initialized, one when
the configuration changed. -/
def questionsOn (reader : Reader Uri Json) : Incoming Json → Nat
  | .notification method params =>
    if method = "initialized" ∧ (reader.initialized params).isSome then 2
    else if method = "workspace/didChangeConfiguration" ∧ (reader.didChangeConfiguration params).isSome then 1
    else 0
  | _ => 0

/-- A message of the client, after some pauses, and the client's answers (result and error) to the questions that the server
asks because of it. -/
structure Exchange (Json : Type) where
  pauses : List Bool
  message : Incoming Json
  answers : List (Option Json × Option Json)

/-- The client answers all questions of the server before it goes on. -/
def Prompt (reader : Reader Uri Json) (x : Exchange Json) : Prop := x.answers.length = questionsOn reader x.message

/-- Answers to the questions from number `n + 1` on. -/
def answerEvents (n : Nat) : List (Option Json × Option Json) → List (Event Json)
  | [] => []
  | (result, error) :: as => .message (.response (.inl (BitVec.ofNat 32 (n + 1))) result error) :: answerEvents (n + 1) as

/-- The events of exchanges, when `n` questions were asked before. -/
def exchangeEvents (n : Nat) : List (Exchange Json) → List (Event Json)
  | [] => []
  | x :: xs => x.pauses.map .pause ++ .message x.message :: answerEvents n x.answers ++
      exchangeEvents (n + x.answers.length) xs

/-- The events of a session: at first the answers to the two questions that the server asks when it starts. -/
def sessionEvents (first second : Option Json × Option Json) (xs : List (Exchange Json)) : List (Event Json) :=
  answerEvents 0 [first, second] ++ exchangeEvents 2 xs

/-- The notification about documents in a message. -/
def documentNote (reader : Reader Uri Json) : Incoming Json → Option (Notification Uri)
  | .notification method params =>
    if method = "textDocument/didOpen" then (reader.didOpen params).map fun p => .didOpen p.1 p.2
    else if method = "textDocument/didChange" then (reader.didChange params).map fun p => .didChange p.1 p.2
    else if method = "textDocument/didClose" then (reader.didClose params).map .didClose
    else if method = "workspace/didDeleteFiles" then (reader.didDelete params).map .didDelete
    else none
  | _ => none

/-- The history of the documents in a session. -/
def documentNotes (reader : Reader Uri Json) (xs : List (Exchange Json)) : List (Notification Uri) :=
  xs.filterMap fun x => documentNote reader x.message

/-- The settings after an answer: those in it if it is a list with one readable element and no error, else the old ones. -/
def settingsFrom (reader : Reader Uri Json) (old : HoverConfig) : Option Json × Option Json → HoverConfig
  | (_, some _) => old
  | (result, none) =>
    match reader.list (result.getD reader.null) with
    | some [x] => (reader.settings x).getD old
    | _ => old

/-- The settings after exchanges. The first answer of an exchange, if there is one, has the settings. -/
def settingsAfter (reader : Reader Uri Json) : HoverConfig → List (Exchange Json) → HoverConfig
  | c, [] => c
  | c, x :: xs =>
    settingsAfter reader (match x.answers with | [] => c | a :: _ => settingsFrom reader c a) xs

/-- The client does not ask the server to stop. -/
def NoShutdown (xs : List (Exchange Json)) : Prop := ∀ x ∈ xs, ∀ id params, x.message ≠ .request id "shutdown" params

end Mabo.Spec
