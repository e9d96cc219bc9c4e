/-!
The parser combinators of `winnow` 0.7 that `crates/mabo-parser` uses, and the project's own `punctuate`/`surround`
(`crates/mabo-parser/src/parser.rs:205-287`), on texts as lists of characters.

Simplifications: spans, labels (`trace`) and the contents of errors are dropped; an error is either recoverable
(`back`, winnow's `ErrMode::Backtrack`) or final (`cut`, `ErrMode::Cut`). Inputs are complete, so `ErrMode::Incomplete`
does not occur. A parser that fails leaves the position open; the combinators that go on after a failure (`opt`, `alt`,
`repeat`, ...) reset the position first, as here.
-/
namespace Mabo.Parse

/-- The remaining input. -/
abbrev Text := List Char

/-- Result of a parser: the value and the remaining input, or a recoverable or final error. -/
inductive Res (α : Type) where
  | ok (a : α) (rest : Text)
  | back
  | cut
deriving DecidableEq, Repr

/-- `winnow::Parser`. -/
def P (α : Type) := Text → Res α

/-- Sequencing: an error of either kind ends the sequence (winnow's tuples). -/
instance : Monad P where
  pure a := fun s => .ok a s
  bind p f := fun s => match p s with
    | .ok a r => f a r
    | .back => .back
    | .cut => .cut

/-- `fail`. -/
def fail {α : Type} : P α := fun _ => .back

/-- `cut_err`. -/
def cutErr {α : Type} (p : P α) : P α := fun s => match p s with
  | .back => .cut
  | o => o

/-- `opt`. -/
def opt {α : Type} (p : P α) : P (Option α) := fun s => match p s with
  | .ok a r => .ok (some a) r
  | .back => .ok none s
  | .cut => .cut

/-- `alt((p, q))`; longer alternatives are nested to the right. -/
def alt {α : Type} (p q : P α) : P α := fun s => match p s with
  | .back => q s
  | o => o

/-- What is left of `s` after the prefix `w`. -/
def dropPrefix : Text → Text → Option Text
  | [], s => some s
  | _ :: _, [] => none
  | c :: w, d :: s => if c = d then dropPrefix w s else none

/-- `literal("...")`. -/
def lit (w : String) : P Unit := fun s => match dropPrefix w.toList s with
  | some r => .ok () r
  | none => .back

/-- A literal character. -/
def chr (c : Char) : P Unit
  | [] => .back
  | d :: s => if d = c then .ok () s else .back

/-- `one_of(set)`. -/
def oneOf (f : Char → Bool) : P Char
  | [] => .back
  | d :: s => if f d then .ok d s else .back

/-- `peek(any)`. -/
def peekAny : P Char
  | [] => .back
  | d :: s => .ok d (d :: s)

/-- `take_while(min.., set)`. -/
def takeWhile (min : Nat) (f : Char → Bool) : P Text := fun s =>
  if (s.takeWhile f).length < min then .back else .ok (s.takeWhile f) (s.dropWhile f)

/-- `take_while(min..=max, set)`: at most `max` characters are taken. -/
def takeWhileMax (min max : Nat) (f : Char → Bool) : P Text := fun s =>
  let w := (s.takeWhile f).take max
  if w.length < min then .back else .ok w (s.drop w.length)

/-- Characters of `space0`. -/
def isSpace (c : Char) : Bool := c == ' ' || c == '\t'

/-- Characters of `multispace0`. -/
def isMulti (c : Char) : Bool := c == ' ' || c == '\t' || c == '\r' || c == '\n'

/-- `space0`. -/
def space0 : P Text := takeWhile 0 isSpace
/-- `space1`. -/
def space1 : P Text := takeWhile 1 isSpace
/-- `multispace0`. -/
def multi0 : P Text := takeWhile 0 isMulti
/-- `multispace1`. -/
def multi1 : P Text := takeWhile 1 isMulti

/-- `preceded(space0, p)`. -/
def sp {α : Type} (p : P α) : P α := do let _ ← space0; p

/-- `ws`, parser.rs:208-215: `preceded(multispace0, inner)`. -/
def ws {α : Type} (p : P α) : P α := do let _ ← multi0; p

/-- `terminated(p, q)`. -/
def terminated {α β : Type} (p : P α) (q : P β) : P α := do let a ← p; let _ ← q; pure a

/-- Loop of `repeat(0.., p)`; `fuel` bounds the iterations (each one consumes at least a character). -/
def manyAux {α : Type} (p : P α) : Nat → Text → Res (List α)
  | 0, _ => .cut
  | n + 1, s => match p s with
    | .back => .ok [] s
    | .cut => .cut
    | .ok a r =>
      if r.length = s.length then .cut
      else match manyAux p n r with
        | .ok as r => .ok (a :: as) r
        | .back => .back
        | .cut => .cut

/-- `repeat(0.., p)`. An iteration that consumes nothing is an assertion failure of winnow (`cut`). -/
def many {α : Type} (p : P α) : P (List α) := fun s => manyAux p (s.length + 1) s

/-- `repeat(1.., p)`. -/
def many1 {α : Type} (p : P α) : P (List α) := do let a ← p; let as ← many p; pure (a :: as)

/-- `separated(1.., p, sep)`: a separator without a following element is given back. -/
def separated1 {α β : Type} (p : P α) (sep : P β) : P (List α) := do
  let a ← p
  let as ← many (do let _ ← sep; p)
  pure (a :: as)

/-- Loop of `punctuate`, parser.rs:219-270; `prev` is the input where the last success of `f` started (`start_prev`)
together with the values before it; `acc` are the values so far in reverse; `fuel` bounds the iterations. -/
def punctuateAux {α : Type} (f : P α) (g : P (α × Bool)) : Nat → List α → Option (Text × List α) →
    Text → Res (List α × Bool)
  | 0, _, _, _ => .cut
  | n + 1, acc, prev, s =>
    match f s with
    | .ok a r => if r.length = s.length then .cut else punctuateAux f g n (a :: acc) (some (s, acc)) r
    | .cut => .cut
    | .back =>
      match g s with
      | .ok (a, t) r => .ok ((a :: acc).reverse, t) r
      | .cut => .cut
      | .back =>
        match prev with
        | none => .back
        | some (s', acc') =>
          match g s' with
          | .ok (a, t) r => .ok ((a :: acc').reverse, t) r
          | .back => .back
          | .cut => .cut

/-- `punctuate(f, g)`, parser.rs:219-270: `f` parses a value and a separator, `g` a value and an optional separator.
The result is the values and whether the last separator was present. -/
def punctuate {α : Type} (f : P α) (g : P (α × Bool)) : P (List α × Bool) :=
  fun s => punctuateAux f g (s.length + 1) [] none s

/-- `surround`, parser.rs:272-287. -/
def surround {α : Type} (o c : Char) (p : P α) : P α := do
  chr o
  cutErr (do let a ← p; ws (chr c); pure a)

/-- `punctuate((p, ws(Comma)), (p, opt(ws(Comma))))`, the only way `punctuate` is used. -/
def commaList {α : Type} (p : P α) : P (List α × Bool) :=
  punctuate (do let a ← p; ws (chr ','); pure a) (do let a ← p; let c ← opt (ws (chr ',')); pure (a, c.isSome))

/-- `'a'..='z'`. -/
def isLower (c : Char) : Bool := 'a' ≤ c && c ≤ 'z'
/-- `'A'..='Z'`. -/
def isUpper (c : Char) : Bool := 'A' ≤ c && c ≤ 'Z'
/-- `'0'..='9'` (also the characters of `digit0`, `digit1`). -/
def isDigit (c : Char) : Bool := '0' ≤ c && c ≤ '9'
/-- Characters of `alphanumeric0`. -/
def isAlnum (c : Char) : Bool := isLower c || isUpper c || isDigit c

/-- `(one_of(head), take_while(0.., tail)).take()`. -/
def name (head tail : Char → Bool) : P String := do
  let c ← oneOf head
  let cs ← takeWhile 0 tail
  pure (String.ofList (c :: cs))

/-- Value of a run of digits. -/
def digitsVal (cs : Text) : Nat := Nat.ofDigitChars 10 cs 0

/-- winnow's `dec_uint` for a type with the values below `bound`: `0` or a run of digits without leading zero; a number
that is out of range is a recoverable error. -/
def decUint (bound : Nat) : P Nat := fun s =>
  match alt (do let c ← oneOf (fun c => isDigit c && c != '0'); let cs ← takeWhile 0 isDigit; pure (c :: cs))
      (do let c ← oneOf (· == '0'); pure [c]) s with
  | .ok cs r => if digitsVal cs < bound then .ok (digitsVal cs) r else .back
  | .back => .back
  | .cut => .cut

end Mabo.Parse
