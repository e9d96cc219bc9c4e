/-!
Model of the documents the language server keeps: `crates/mabo-lsp/src/handlers/mod.rs` (`did_open`, `did_change`,
`did_close`, `did_delete`, `convert_range`, `create_file`, `update_file`) and `state.rs`.

Parameter: `offset text pos`, the byte offset that `Index::get_offset` (index.rs:58-81, crate `line-index`) computes with
the index of `text`; its contract is in `Spec/Lsp.lean`. Not modelled: logging, the schema compiled from the content (a
function of the content), the contents of the diagnostics. The hash map of files is an association list.
-/
namespace Mabo.Lsp

/-- A document. -/
abbrev Text := List Char

/-- `lsp_types::Position`; numbers are unbounded here. -/
structure Position where
  line : Nat
  character : Nat
deriving DecidableEq, Repr

/-- `lsp_types::TextDocumentContentChangeEvent`. -/
structure Change where
  range : Option (Position × Position)
  text : Text

/-- Number of bytes of a text. -/
def bytes (t : Text) : Nat := (t.map Char.utf8Size).sum

/-- `state::File`, state.rs:20-32: the content, the rope, and the text that the index was built from. -/
structure File where
  content : Text
  rope : Text
  index : Text
deriving DecidableEq, Repr

/-- Result of a handler: it may panic, which ends the server. -/
inductive Outcome (α : Type) where
  | ok (a : α)
  | panic
deriving DecidableEq, Repr

/-- Sequencing. -/
def Outcome.bind {α β : Type} (o : Outcome α) (f : α → Outcome β) : Outcome β := match o with
  | .ok a => f a
  | .panic => .panic

/-- `Rope::byte_to_char`: panics past the end; inside a character it gives that character. -/
def byteToChar (rope : Text) (b : Nat) : Outcome Nat := go rope b
where
  /-- Walk over the characters. -/
  go : Text → Nat → Outcome Nat
    | _, 0 => .ok 0
    | [], _ + 1 => .panic
    | c :: cs, b + 1 =>
      if b + 1 < c.utf8Size then .ok 0
      else match go cs (b + 1 - c.utf8Size) with
        | .ok n => .ok (n + 1)
        | .panic => .panic

/-- `convert_range`, mod.rs:332-344. `none` is an error (reported, and the change is skipped). Offsets must fit `u32`;
`TextRange::new` panics when the end is before the start. -/
def convertRange (offset : Text → Position → Option Nat) (index : Text) (range : Option (Position × Position)) :
    Outcome (Option (Nat × Nat)) :=
  match range with
  | none => .ok none
  | some (p, q) =>
    match offset index p with
    | none => .ok none
    | some s =>
      match offset index q with
      | none => .ok none
      | some e =>
        if s < 2 ^ 32 ∧ e < 2 ^ 32 then (if s ≤ e then .ok (some (s, e)) else .panic) else .ok none

/-- The loop in `did_change`, mod.rs:202-217, on the rope: every change is converted with the index of the document
before the notification. -/
def applyChanges (offset : Text → Position → Option Nat) (index : Text) : List Change → Text → Outcome Text
  | [], rope => .ok rope
  | ch :: chs, rope =>
    (convertRange offset index ch.range).bind fun
      | none => applyChanges offset index chs rope
      | some (s, e) =>
        (byteToChar rope s).bind fun s =>
        (byteToChar rope e).bind fun e =>
          applyChanges offset index chs (rope.take s ++ ch.text ++ rope.drop e)

/-- `create_file`, mod.rs:346-355. -/
def createFile (text : Text) : File := ⟨text, text, text⟩

/-- `update_file`, mod.rs:357-373. -/
def updateFile (update : Text → Text → Outcome Text) (f : File) : Outcome File :=
  (update f.index f.rope).bind fun rope => .ok ⟨rope, rope, rope⟩

/-- The open files, state.rs:13-18. -/
abbrev Files (Uri : Type) := List (Uri × File)

variable {Uri : Type} [DecidableEq Uri]

/-- `HashMap::get`. -/
def get (fs : Files Uri) (u : Uri) : Option File := (fs.find? (·.1 = u)).map (·.2)
/-- `HashMap::remove`. -/
def remove (fs : Files Uri) (u : Uri) : Files Uri := fs.filter (·.1 ≠ u)
/-- `HashMap::insert`. -/
def insert (fs : Files Uri) (u : Uri) (f : File) : Files Uri := (u, f) :: remove fs u

/-- `did_open`, mod.rs:151-181. -/
def didOpen (fs : Files Uri) (u : Uri) (text : Text) : Files Uri :=
  match get fs u with
  | some f => if f.content = text then fs else insert fs u (createFile text)
  | none => insert fs u (createFile text)

/-- `is_full`, mod.rs:184-186. -/
def isFull : List Change → Bool
  | [ch] => ch.range.isNone
  | _ => false

/-- `did_change`, mod.rs:183-234. -/
def didChange (offset : Text → Position → Option Nat) (fs : Files Uri) (u : Uri) (chs : List Change) :
    Outcome (Files Uri) :=
  match chs, isFull chs with
  | ch :: _, true => .ok (insert fs u (createFile ch.text))
  | _, _ =>
    match get fs u with
    | none => .ok fs
    | some f =>
      (updateFile (fun index rope => applyChanges offset index chs rope) f).bind fun f =>
        .ok (insert (remove fs u) u f)

/-- `did_delete`, mod.rs:240-245. -/
def didDelete (fs : Files Uri) (us : List Uri) : Files Uri := fs.filter fun e => !us.any (· = e.1)

/-- The notifications about documents, main.rs:127-151. -/
inductive Notification (Uri : Type) where
  | didOpen (u : Uri) (text : Text)
  | didChange (u : Uri) (changes : List Change)
  | didClose (u : Uri)
  | didDelete (us : List Uri)

/-- One round of `main_loop`, main.rs:127-151; `did_close` (mod.rs:236-238) does nothing. -/
def step (offset : Text → Position → Option Nat) (fs : Files Uri) : Notification Uri → Outcome (Files Uri)
  | .didOpen u text => .ok (didOpen fs u text)
  | .didChange u chs => didChange offset fs u chs
  | .didClose _ => .ok fs
  | .didDelete us => .ok (didDelete fs us)

/-- `main_loop`, main.rs:69-155. -/
def run (offset : Text → Position → Option Nat) (fs : Files Uri) : List (Notification Uri) → Outcome (Files Uri)
  | [] => .ok fs
  | n :: ns => (step offset fs n).bind fun fs => run offset fs ns

/-- The text of a document as all later requests see it (`borrow_content`). -/
def content (fs : Files Uri) (u : Uri) : Option Text := (get fs u).map File.content

end Mabo.Lsp
