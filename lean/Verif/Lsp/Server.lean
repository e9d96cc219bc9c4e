import Verif.Lsp.Hover
import Verif.Lsp.Symbols
import Verif.Lsp.Diagnostics
/-!
Model of the message loop of the language server: `crates/mabo-lsp/src/main.rs` (from the end of `main` on), `client.rs` and
`GlobalState::reload_settings` in `state.rs`.

The messages that reach the server are a list of events, in the order of their arrival; a pause is a time without messages
that is longer than the time limit of `send_request` (2 seconds), and a long one longer than that of `handle_shutdown` (30
seconds). The end of the list is the end of the connection. Sent messages are a list too.

Parameters: how `serde_json` reads the parameters of the methods (`Reader`), and those of the handlers. Not modelled:
logging, failures to send, texts of error responses, the handshake before (`initialize`) and the files it loads.
-/
namespace Mabo.Lsp

variable {Uri : Type} [DecidableEq Uri] {Json : Type}

/-- `lsp_server::RequestId`: an `i32` or a string. -/
abbrev RequestId := BitVec 32 ⊕ String

/-- `lsp_server::Message`, as received. -/
inductive Incoming (Json : Type) where
  | request (id : RequestId) (method : String) (params : Json)
  | response (id : RequestId) (result error : Option Json)
  | notification (method : String) (params : Json)

/-- What `conn.receiver` yields over time. -/
inductive Event (Json : Type) where
  | message (m : Incoming Json)
  | pause (long : Bool)

/-- The content of a response: results of the handlers, or one of the error codes used in main.rs. -/
inductive Reply where
  | hover (r : Option (String × (Position × Position)))
  | symbols (r : List Symbol)
  | tokens (r : List SemanticToken)
  | null
  | methodNotFound
  | invalidParams
  | internalError

/-- `lsp_server::Message`, as sent. -/
inductive Outgoing (Uri : Type) where
  | response (id : RequestId) (reply : Reply)
  | request (id : RequestId) (method : String)
  | diagnostics (p : Published Uri)

/-- `serde_json::from_value` for the parameters and results of each method; `none` is an error. `initialized`, `didClose` and
`didChangeConfiguration` have parameters that the handlers do not use. -/
structure Reader (Uri Json : Type) where
  null : Json
  hover : Json → Option (Uri × Position)
  documentSymbol : Json → Option Uri
  semanticTokens : Json → Option Uri
  initialized : Json → Option Unit
  didOpen : Json → Option (Uri × Text)
  didChange : Json → Option (Uri × List Change)
  didClose : Json → Option Uri
  didDelete : Json → Option (List Uri)
  didChangeConfiguration : Json → Option Unit
  list : Json → Option (List Json)
  settings : Json → Option HoverConfig

/-- Everything that is fixed while the server runs. -/
structure Server (Uri Json : Type) where
  reader : Reader Uri Json
  env : Env
  offset : Text → Position → Option Nat
  position : Text → Nat → Option Position

/-- `GlobalState`, state.rs:13-18, with `Client`, client.rs:13-16; the encoding is in `offset` and `position`. -/
structure State (Uri : Type) where
  nextId : BitVec 32
  files : Files Uri
  settings : HoverConfig

/-- `GlobalState::new`, state.rs:35-42, `Client::new`, client.rs:19-21, and `Hover::default`, config.rs:17-24. -/
def State.new : State Uri := ⟨0, [], ⟨true, true⟩⟩

/-- How `main_loop` ends: the connection was closed, after `shutdown` and `exit`, with an error, or with a panic. -/
inductive End where
  | closed
  | shutdown
  | failed
  | panicked
deriving DecidableEq

/-- The effect of a handler: what it sends, the state after it, how many of the waiting events it read, and whether it ends
the server. -/
structure Turn (Uri : Type) where
  out : List (Outgoing Uri)
  state : State Uri
  read : Nat
  stop : Option End

/-- The part of `send_request` behind the sending, client.rs:56-80: the next event, whatever it is, is taken as the answer.
`none` is an error. -/
def receiveAnswer (reader : Reader Uri Json) (id : BitVec 32) : List (Event Json) → Option Json
  | .message (.response rid result none) :: _ => if rid = .inl id then some (result.getD reader.null) else none
  | _ => none

/-- `next_id` and `send_request`, client.rs:23-27 and 42-81: the message sent, the state, the answer. -/
def sendRequest (reader : Reader Uri Json) (method : String) (st : State Uri) (es : List (Event Json)) :
    Outgoing Uri × State Uri × Option Json :=
  (.request (.inl (st.nextId + 1)) method, { st with nextId := st.nextId + 1 }, receiveAnswer reader (st.nextId + 1) es)

/-- The method of `configuration`, client.rs:96-101. -/
def configurationMethod : String := "workspace/configuration"
/-- The method of `register_capability`, client.rs:103-105. -/
def registerMethod : String := "client/registerCapability"

/-- What `reload_settings` makes of the answer, state.rs:51-65; `none` is an error. -/
def readSettings (reader : Reader Uri Json) (answer : Option Json) : Option HoverConfig :=
  match answer with
  | none => none
  | some j =>
    match reader.list j with
    | some [x] => reader.settings x
    | _ => none

/-- `reload_settings`, state.rs:44-66; errors are only logged. It reads one event. -/
def reloadSettings (reader : Reader Uri Json) (st : State Uri) (es : List (Event Json)) : Turn Uri :=
  let (o, st, answer) := sendRequest reader configurationMethod st es
  match readSettings reader answer with
  | none => ⟨[o], st, 1, none⟩
  | some s => ⟨[o], { st with settings := s }, 1, none⟩

/-- `initialized`, mod.rs:130-149: two requests, one after the other. -/
def initialized (reader : Reader Uri Json) (st : State Uri) (es : List (Event Json)) : Turn Uri :=
  let t := reloadSettings reader st es
  let (o, st, _) := sendRequest reader registerMethod t.state (es.drop 1)
  ⟨t.out ++ [o], st, 2, none⟩

/-- `handle_request`, main.rs:157-192, with `cast_req`, 194-209. -/
def handleRequest {P R : Type} (st : State Uri) (id : RequestId) (params : Option P) (handler : P → Resp R) (post : R → Reply) :
    Turn Uri :=
  match params with
  | none => ⟨[.response id .invalidParams], st, 0, none⟩
  | some p =>
    match handler p with
    | .ok r => ⟨[.response id (post r)], st, 0, none⟩
    | .error => ⟨[.response id .internalError], st, 0, none⟩
    | .panic => ⟨[], st, 0, some .panicked⟩

/-- `Connection::handle_shutdown` of the crate `lsp-server` behind the response: the next message must be `exit`. -/
def awaitExit : List (Event Json) → End
  | .pause false :: es => awaitExit es
  | .message (.notification "exit" _) :: _ => .shutdown
  | _ => .failed

/-- The arms for requests, main.rs:72-120. -/
def onRequest (s : Server Uri Json) (st : State Uri) (es : List (Event Json)) (id : RequestId) (method : String)
    (params : Json) : Turn Uri :=
  match method with
  | "shutdown" => ⟨[.response id .null], st, 0, some (awaitExit es)⟩
  | "textDocument/hover" =>
    handleRequest st id (s.reader.hover params)
      (fun p => hover s.env.std s.env.checked st.settings s.offset s.position st.files p.1 p.2) .hover
  | "textDocument/documentSymbol" =>
    handleRequest st id (s.reader.documentSymbol params)
      (fun u => documentSymbol s.env.std s.env.checked s.position st.files u) (fun r => .symbols (r.getD []))
  | "textDocument/semanticTokens/full" =>
    handleRequest st id (s.reader.semanticTokens params)
      (fun u => semanticTokens s.env.std s.env.checked s.position st.files u) (fun r => .tokens (r.getD []))
  | _ => ⟨[.response id .methodNotFound], st, 0, none⟩

/-- `handle_notify`, main.rs:211-227, for the notifications about documents. -/
def handleDocument (s : Server Uri Json) (st : State Uri) (n : Option (Notification Uri)) : Turn Uri :=
  match n with
  | none => ⟨[], st, 0, none⟩
  | some n =>
    match stepPublish s.env s.offset s.position st.files n with
    | .ok (fs, ps) => ⟨ps.map .diagnostics, { st with files := fs }, 0, none⟩
    | .panic => ⟨[], st, 0, some .panicked⟩

/-- The arms for notifications, main.rs:126-151. -/
def onNotification (s : Server Uri Json) (st : State Uri) (es : List (Event Json)) (method : String) (params : Json) :
    Turn Uri :=
  match method with
  | "initialized" =>
    match s.reader.initialized params with
    | none => ⟨[], st, 0, none⟩
    | some _ => initialized s.reader st es
  | "textDocument/didOpen" => handleDocument s st ((s.reader.didOpen params).map fun p => .didOpen p.1 p.2)
  | "textDocument/didChange" => handleDocument s st ((s.reader.didChange params).map fun p => .didChange p.1 p.2)
  | "textDocument/didClose" => handleDocument s st ((s.reader.didClose params).map .didClose)
  | "workspace/didDeleteFiles" => handleDocument s st ((s.reader.didDelete params).map .didDelete)
  | "workspace/didChangeConfiguration" =>
    match s.reader.didChangeConfiguration params with
    | none => ⟨[], st, 0, none⟩
    | some _ => reloadSettings s.reader st es
  | _ => ⟨[], st, 0, none⟩

/-- The `match` on the message, main.rs:71-152; `es` are the events behind it. -/
def onMessage (s : Server Uri Json) (st : State Uri) (es : List (Event Json)) : Incoming Json → Turn Uri
  | .request id method params => onRequest s st es id method params
  | .response _ _ _ => ⟨[], st, 0, none⟩
  | .notification method params => onNotification s st es method params

/-- `main_loop`, main.rs:69-155: all that is sent, and how it ends. `skip` events were read by the last handler. -/
def mainLoop (s : Server Uri Json) : Nat → State Uri → List (Event Json) → List (Outgoing Uri) × End
  | _, _, [] => ([], .closed)
  | skip + 1, st, _ :: es => mainLoop s skip st es
  | 0, st, .pause _ :: es => mainLoop s 0 st es
  | 0, st, .message m :: es =>
    match onMessage s st es m with
    | ⟨out, _, _, some e⟩ => (out, e)
    | ⟨out, st, read, none⟩ =>
      let (later, e) := mainLoop s read st es
      (out ++ later, e)

/-- `main` behind the handshake, main.rs:52-59: `handlers::initialized`, then `main_loop`. -/
def serve (s : Server Uri Json) (es : List (Event Json)) : List (Outgoing Uri) × End :=
  let t := initialized s.reader State.new es
  let (later, e) := mainLoop s t.read t.state es
  (t.out ++ later, e)

end Mabo.Lsp
