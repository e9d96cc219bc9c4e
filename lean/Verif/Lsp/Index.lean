import Verif.Lsp.Sync
/-!
Model of `crates/mabo-lsp/src/handlers/index.rs` and of the choice of the position encoding in `initialize`
(`handlers/mod.rs`).

`LineIndex` models the crate `line-index` 0.1.2 (not in the repository): the offsets behind the line feeds, and for each line
the characters of more than one byte. Numbers are unbounded here: `LineIndex::new` panics for texts of 4 GiB and more, so the
casts to `u32` in index.rs are exact.
-/
namespace Mabo.Lsp

/-- `line_index::WideChar`: the columns in bytes where a character of more than one byte starts and ends. -/
structure WideChar where
  start : Nat
  stop : Nat
deriving DecidableEq, Repr

/-- `line_index::WideEncoding`. -/
inductive WideEncoding where
  | utf16 | utf32
deriving DecidableEq, Repr

/-- `WideChar::len`. -/
def WideChar.len (c : WideChar) : Nat := c.stop - c.start

/-- `WideChar::wide_len`. -/
def WideChar.wideLen (c : WideChar) : WideEncoding → Nat
  | .utf16 => if c.len = 4 then 2 else 1
  | .utf32 => 1

/-- `line_index::LineIndex`: the offsets where lines after the first start, and the wide characters of each line. -/
structure LineIndex where
  newlines : List Nat
  wide : List (List WideChar)
deriving DecidableEq, Repr

/-- Add a wide character in front of those of the first line. -/
def pushWide (c : WideChar) : List (List WideChar) → List (List WideChar)
  | [] => [[c]]
  | l :: ls => (c :: l) :: ls

/-- `line_index::analyze_source_file`, at an offset and column. -/
def analyze (off col : Nat) : Text → LineIndex
  | [] => ⟨[], [[]]⟩
  | c :: cs =>
    if c = '\n' then
      let r := analyze (off + 1) 0 cs
      ⟨(off + 1) :: r.newlines, [] :: r.wide⟩
    else
      let r := analyze (off + c.utf8Size) (col + c.utf8Size) cs
      if c.utf8Size = 1 then r else ⟨r.newlines, pushWide ⟨col, col + c.utf8Size⟩ r.wide⟩

/-- `LineIndex::new`. -/
def LineIndex.new (text : Text) : LineIndex := analyze 0 0 text

/-- `LineIndex::start_offset`. -/
def LineIndex.startOffset (i : LineIndex) : Nat → Option Nat
  | 0 => some 0
  | l + 1 => i.newlines[l]?

/-- `LineIndex::line_col`, for offsets in the text: line and column in bytes. -/
def LineIndex.lineCol (i : LineIndex) (off : Nat) : Option (Nat × Nat) :=
  let line := (i.newlines.takeWhile (· ≤ off)).length
  (i.startOffset line).map fun start => (line, off - start)

/-- `LineIndex::offset`. -/
def LineIndex.offset (i : LineIndex) (lc : Nat × Nat) : Option Nat := (i.startOffset lc.1).map (· + lc.2)

/-- The loop of `LineIndex::to_wide`. -/
def toWideLoop (enc : WideEncoding) (target : Nat) : List WideChar → Nat → Option Nat
  | [], col => some col
  | c :: cs, col =>
    if c.stop ≤ target then
      (if c.len - c.wideLen enc ≤ col then toWideLoop enc target cs (col - (c.len - c.wideLen enc)) else none)
    else some col

/-- `LineIndex::to_wide`. -/
def LineIndex.toWide (i : LineIndex) (enc : WideEncoding) (lc : Nat × Nat) : Option (Nat × Nat) :=
  (toWideLoop enc lc.2 (i.wide[lc.1]?.getD []) lc.2).map fun col => (lc.1, col)

/-- The loop of `LineIndex::to_utf8`. -/
def toUtf8Loop (enc : WideEncoding) : List WideChar → Nat → Nat
  | [], col => col
  | c :: cs, col => if c.start < col then toUtf8Loop enc cs (col + (c.len - c.wideLen enc)) else col

/-- `LineIndex::to_utf8`. -/
def LineIndex.toUtf8 (i : LineIndex) (enc : WideEncoding) (lc : Nat × Nat) : Nat × Nat :=
  (lc.1, toUtf8Loop enc (i.wide[lc.1]?.getD []) lc.2)

/-- The choice in `Index::new`, index.rs:13-22: every name other than these two means UTF-16. -/
def wideEncoding (kind : String) : Option WideEncoding :=
  if kind = "utf-8" then none else if kind = "utf-32" then some .utf32 else some .utf16

/-- `Index::get_range`, index.rs:28-56, for one end of the range. -/
def getPosition (kind : String) (text : Text) (off : Nat) : Option Position :=
  let i := LineIndex.new text
  (i.lineCol off).bind fun lc =>
    match wideEncoding kind with
    | none => some ⟨lc.1, lc.2⟩
    | some enc => (i.toWide enc lc).map fun lc => ⟨lc.1, lc.2⟩

/-- `Index::get_offset`, index.rs:58-81. -/
def getOffset (kind : String) (text : Text) (p : Position) : Option Nat :=
  let i := LineIndex.new text
  match wideEncoding kind with
  | none => i.offset (p.line, p.character)
  | some enc => i.offset (i.toUtf8 enc (p.line, p.character))

/-- The encoding that `initialize` stores and announces, mod.rs:42-50 and 88: the first one of the client, if it offers any
(`general.position_encodings`, `none` if it is absent). -/
def negotiate (offered : Option (List String)) : String := (offered.bind List.head?).getD "utf-16"

/-- The files that `initialize` loads, mod.rs:52-81: those of the projects in the workspace that can be read and whose path
is a URI, in order. (The key is the bare path parsed as a URI, so it differs from the `file://` URI that a client uses.) -/
def loadFiles {Uri : Type} [DecidableEq Uri] (files : List (Uri × Text)) : Files Uri :=
  files.foldl (fun fs f => insert fs f.1 (createFile f.2)) []

end Mabo.Lsp
