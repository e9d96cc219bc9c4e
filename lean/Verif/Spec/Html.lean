import Verif.Parser.Comb
/-!
How a browser reads an HTML page, as far as it is needed for the pages of the documentation: tags with attributes, their values in double
quotes, character references, text. Anything else is rejected.

Simplifications: tags have to match (no implied end tags), `title` is read like other elements, comments and scripts are not
read. Line breaks and the indentation behind them are no text outside of `pre`, where a browser shows at most one space.
-/
namespace Mabo.Spec.Html
open Mabo.Parse (Text)

/-- Attributes with their values. -/
abbrev Attrs := List (Text × Text)

/-- What is read: `<!..>`, a start tag, an end tag, a character. -/
inductive Event where
  | decl (t : Text)
  | start (name : Text) (attrs : Attrs)
  | stop (name : Text)
  | chr (c : Char)
  deriving DecidableEq, Repr

/-- Where in a tag or character reference the reader is. -/
inductive Mode where
  | data
  | ref (r : Text)
  | tag
  | decl (t : Text)
  | name (n : Text)
  | stop (n : Text)
  | attrs (n : Text) (as : Attrs)
  | attr (n : Text) (as : Attrs) (x : Text)
  | eq (n : Text) (as : Attrs) (x : Text)
  | value (n : Text) (as : Attrs) (x v : Text)
  | valueRef (n : Text) (as : Attrs) (x v r : Text)
  | close (n : Text) (as : Attrs)
  deriving DecidableEq, Repr

/-- The reader: its mode, whether it is at the start of a line, and how many `pre` are open. -/
structure Reader where
  mode : Mode
  fresh : Bool
  pre : Nat
  deriving DecidableEq, Repr

/-- The start. -/
def Reader.init : Reader := ⟨.data, false, 0⟩

/-- The digits as a number. -/
def decimal : Nat → Text → Option Nat
  | n, [] => some n
  | n, c :: cs => if c.isDigit then decimal (10 * n + (c.toNat - '0'.toNat)) cs else none

/-- The character that `&r;` stands for. -/
def charRef (r : Text) : Option Char :=
  match r with
  | '#' :: c :: cs => (decimal 0 (c :: cs)).map Char.ofNat
  | _ =>
    if r = "amp".toList then some '&' else if r = "lt".toList then some '<' else if r = "gt".toList then some '>'
    else if r = "quot".toList then some '"' else none

/-- Blanks inside of tags. -/
def isBlank (c : Char) : Bool := c == ' ' || c == '\n' || c == '\t'

/-- The characters of names of elements and attributes. -/
def isNameChar (c : Char) : Bool := c.isAlphanum || c == '-'

/-- `pre`. -/
def isPre (n : Text) : Bool := n == ['p', 'r', 'e']

/-- A start tag is complete. -/
def Reader.started (s : Reader) (n : Text) (as : Attrs) : Option (Reader × List Event) :=
  some (⟨.data, false, if isPre n then s.pre + 1 else s.pre⟩, [.start n as])

/-- The next character. -/
def Reader.step (s : Reader) (c : Char) : Option (Reader × List Event) :=
  match s.mode with
  | .data =>
    if c = '<' then some (⟨.tag, false, s.pre⟩, [])
    else if c = '&' then some (⟨.ref [], false, s.pre⟩, [])
    else if s.pre = 0 ∧ c = '\n' then some (⟨.data, true, s.pre⟩, [])
    else if s.pre = 0 ∧ c = ' ' ∧ s.fresh = true then some (⟨.data, true, s.pre⟩, [])
    else some (⟨.data, false, s.pre⟩, [.chr c])
  | .ref r =>
    if c = ';' then (charRef r).map fun x => (⟨.data, false, s.pre⟩, [.chr x])
    else if isNameChar c ∨ c = '#' then some ({ s with mode := .ref (r ++ [c]) }, []) else none
  | .tag =>
    if c = '!' then some ({ s with mode := .decl [] }, [])
    else if c = '/' then some ({ s with mode := .stop [] }, [])
    else if isNameChar c then some ({ s with mode := .name [c] }, []) else none
  | .decl t => if c = '>' then some (⟨.data, false, s.pre⟩, [.decl t]) else some ({ s with mode := .decl (t ++ [c]) }, [])
  | .name n =>
    if c = '>' then s.started n []
    else if c = '/' then some ({ s with mode := .close n [] }, [])
    else if isBlank c then some ({ s with mode := .attrs n [] }, [])
    else if isNameChar c then some ({ s with mode := .name (n ++ [c]) }, []) else none
  | .stop n =>
    if c = '>' then some (⟨.data, false, if isPre n then s.pre - 1 else s.pre⟩, [.stop n])
    else if isNameChar c then some ({ s with mode := .stop (n ++ [c]) }, []) else none
  | .attrs n as =>
    if c = '>' then s.started n as
    else if c = '/' then some ({ s with mode := .close n as }, [])
    else if isBlank c then some (s, [])
    else if isNameChar c then some ({ s with mode := .attr n as [c] }, []) else none
  | .attr n as x =>
    if c = '=' then some ({ s with mode := .eq n as x }, [])
    else if c = '>' then s.started n (as ++ [(x, [])])
    else if isBlank c then some ({ s with mode := .attrs n (as ++ [(x, [])]) }, [])
    else if isNameChar c then some ({ s with mode := .attr n as (x ++ [c]) }, []) else none
  | .eq n as x => if c = '"' then some ({ s with mode := .value n as x [] }, []) else none
  | .value n as x v =>
    if c = '"' then some ({ s with mode := .attrs n (as ++ [(x, v)]) }, [])
    else if c = '&' then some ({ s with mode := .valueRef n as x v [] }, [])
    else some ({ s with mode := .value n as x (v ++ [c]) }, [])
  | .valueRef n as x v r =>
    if c = ';' then (charRef r).map fun y => ({ s with mode := .value n as x (v ++ [y]) }, [])
    else if isNameChar c ∨ c = '#' then some ({ s with mode := .valueRef n as x v (r ++ [c]) }, []) else none
  | .close n as => if c = '>' then s.started n as else none

/-- All characters. -/
def Reader.scan (s : Reader) : Text → Option (Reader × List Event)
  | [] => some (s, [])
  | c :: cs =>
    match s.step c with
    | none => none
    | some (s', es) => (s'.scan cs).map fun r => (r.1, es ++ r.2)

/-- The document tree. -/
inductive Node where
  | decl (t : Text)
  | el (name : Text) (attrs : Attrs) (kids : List Node)
  | chr (c : Char)

/-- Elements without content, which have no end tag. -/
def isVoid (n : Text) : Bool :=
  n ∈ ["meta".toList, "link".toList, "br".toList, "hr".toList, "img".toList, "input".toList]

/-- The tree of the events: open elements (with what came before them) and the nodes of the innermost one so far. -/
def build : List (Text × Attrs × List Node) → List Node → List Event → Option (List Node)
  | [], acc, [] => some acc
  | _ :: _, _, [] => none
  | st, acc, .decl t :: es => build st (acc ++ [.decl t]) es
  | st, acc, .chr c :: es => build st (acc ++ [.chr c]) es
  | st, acc, .start n as :: es => if isVoid n then build st (acc ++ [.el n as []]) es else build ((n, as, acc) :: st) [] es
  | [], _, .stop _ :: _ => none
  | (m, as, before) :: st, acc, .stop n :: es => if m = n then build st (before ++ [.el m as acc]) es else none

/-- The document that the text is. -/
def readHtml (t : Text) : Option (List Node) :=
  match Reader.init.scan t with
  | some (⟨.data, _, _⟩, es) => build [] [] es
  | _ => none

/-! ### Documents to compare with -/

/-- Text as it is in `pre`. -/
def exact (t : Text) : List Node := t.map .chr

/-- Without line breaks and what indentation follows them. -/
def joined (fresh : Bool) : Text → Text
  | [] => []
  | c :: cs => if c = '\n' then joined true cs else if c = ' ' ∧ fresh = true then joined true cs else c :: joined false cs

/-- Text elsewhere. -/
def text (t : Text) : List Node := (joined false t).map .chr

/-- Text of the page that is not from the schema. -/
def say (s : String) : List Node := s.toList.map .chr

/-- An element. -/
def el (name : String) (attrs : List (String × Text)) (kids : List Node) : Node :=
  .el name.toList (attrs.map fun a => (a.1.toList, a.2)) kids

end Mabo.Spec.Html
