import Verif.Parser.Types
/-!
Model of `crates/mabo-parser/src/parser/literals.rs` and of the printing of literals in `crates/mabo-parser/src/lib.rs`.

Three functions of the Rust standard library are not modelled but are parameters (`Std`): reading and printing of `f64`,
and which characters `{:?}` of a string writes as `\u{...}`. Everything stated about literals holds for all of them.
-/
namespace Mabo.Parse
open Mabo.Ast

/-- The parts of the Rust standard library that stay abstract. -/
structure Std where
  /-- `f64::from_str` (always succeeds on the texts that `parse_float` recognises). -/
  readFloat : Text → BitVec 64
  /-- `Display for f64`. -/
  showFloat : BitVec 64 → Text
  /-- The characters that `Debug for str` writes as `\u{...}`: not printable, or extending the previous grapheme. -/
  escaped : Char → Bool

/-- `take()`: the text a parser consumed. -/
def taken {α : Type} (p : P α) : P Text := fun s => match p s with
  | .ok _ r => .ok (s.take (s.length - r.length)) r
  | .back => .back
  | .cut => .cut

/-- `opt(one_of(['+', '-']))`. -/
def optSign : P (Option Char) := opt (oneOf fun c => c == '+' || c == '-')

/-- The text of a float, literals.rs:126-130. -/
def floatText : P Text := taken (do
  let _ ← optSign
  let _ ← takeWhile 1 isDigit
  chr '.'
  let _ ← takeWhile 1 isDigit
  let _ ← opt (do
    let _ ← oneOf fun c => c == 'e' || c == 'E'
    let _ ← optSign
    cutErr (takeWhile 1 isDigit))
  pure ())

/-- `parse_float`, literals.rs:125-134. -/
def parseFloat (std : Std) : P Literal := do
  let t ← floatText
  pure (.float (std.readFloat t))

/-- Value of an optionally signed run of digits. -/
def intVal (sign : Option Char) (ds : Text) : Int :=
  if sign = some '-' then - (digitsVal ds : Int) else digitsVal ds

/-- `parse_int`, literals.rs:136-146; `i128::from_str` fails when the number is out of range. -/
def parseInt : P Literal := do
  let sign ← optSign
  let ds ← takeWhile 1 isDigit
  let v := intVal sign ds
  if -2 ^ 127 ≤ v ∧ v < 2 ^ 127 then pure (.int v) else fail

/-- Characters of a plain fragment, literals.rs:182. -/
def isPlain (c : Char) : Bool := c != '"' && c != '\\'

/-- Hexadecimal digits. -/
def isHex (c : Char) : Bool := isDigit c || ('a' ≤ c && c ≤ 'f') || ('A' ≤ c && c ≤ 'F')

/-- Value of a hexadecimal digit. -/
def hexDigit (c : Char) : Nat :=
  if isDigit c then c.toNat - '0'.toNat else if 'a' ≤ c then c.toNat - 'a'.toNat + 10 else c.toNat - 'A'.toNat + 10

/-- `u32::from_str_radix(hex, 16)` (at most six digits, so it fits). -/
def hexVal (ds : Text) : Nat := ds.foldl (fun n c => 16 * n + hexDigit c) 0

/-- `char::from_u32`. -/
def charOf (n : Nat) : Option Char := if h : n.isValidChar then some (Char.ofNatAux n h) else none

/-- `parse_string_unicode`, literals.rs:208-220. -/
def parseUnicode : P Char := do
  chr 'u'
  let ds ← cutErr (do chr '{'; let ds ← takeWhileMax 1 6 isHex; chr '}'; pure ds)
  match charOf (hexVal ds) with
  | some c => pure c
  | none => fail

/-- Dispatch of `parse_string_escaped_char`, literals.rs:187-206; the arm `'\0'` matches a NUL character, not the
letter `0`. -/
def escapedChar : P Char := do
  let c ← peekAny
  if c = 'n' then do chr 'n'; pure '\n'
  else if c = 'r' then do chr 'r'; pure '\r'
  else if c = 't' then do chr 't'; pure '\t'
  else if c = 'b' then do chr 'b'; pure '\x08'
  else if c = 'f' then do chr 'f'; pure '\x0c'
  else if c = '\\' then do chr '\\'; pure '\\'
  else if c = '\x00' then do chr '\x00'; pure '\x00'
  else if c = '/' then do chr '/'; pure '/'
  else if c = '"' then do chr '"'; pure '"'
  else if c = 'u' then parseUnicode
  else fail

/-- `parse_fragment`, literals.rs:172-179, with the text it adds (153-158). -/
def parseFragment : P Text :=
  alt (takeWhile 1 isPlain)
    (alt (do chr '\\'; let c ← escapedChar; pure [c]) (do chr '\\'; let _ ← multi1; pure []))

/-- `parse_string`, literals.rs:148-164. -/
def parseString : P Literal := do
  chr '"'
  let frs ← cutErr (do let frs ← many parseFragment; chr '"'; pure frs)
  pure (.string (String.ofList frs.flatten))

/-- `parse_bytes`, literals.rs:226-235. -/
def parseBytes : P Literal := do
  chr '['
  let bs ← cutErr (do
    let bs ← separated1 (ws (decUint 256)) (ws (chr ','))
    let _ ← opt (ws (chr ','))
    ws (chr ']')
    pure bs)
  pure (.bytes (bs.map UInt8.ofNat))

/-- `literals::parse`, literals.rs:90-115. -/
def parseLiteral (std : Std) : P Literal := do
  let c ← peekAny
  if c = 't' then do lit "true"; pure (.bool true)
  else if c = 'f' then do lit "false"; pure (.bool false)
  else if c = '+' ∨ c = '-' ∨ isDigit c = true then cutErr (alt (parseFloat std) parseInt)
  else if c = '"' then parseString
  else if c = '[' then parseBytes
  else fail

/-! ### Printing -/

/-- `Display for i128`. -/
def printInt (i : Int) : Text := if i < 0 then '-' :: printNat i.natAbs else printNat i.natAbs

/-- One character in `Debug for str`. -/
def printChar (std : Std) (c : Char) : Text :=
  if c = '\x00' then ['\\', '0']
  else if c = '\t' then ['\\', 't']
  else if c = '\r' then ['\\', 'r']
  else if c = '\n' then ['\\', 'n']
  else if c = '\\' then ['\\', '\\']
  else if c = '"' then ['\\', '"']
  else if std.escaped c then '\\' :: 'u' :: '{' :: (Nat.toDigits 16 c.toNat ++ ['}'])
  else [c]

/-- `Debug for str`. -/
def printString (std : Std) (s : String) : Text := '"' :: ((s.toList.map (printChar std)).flatten ++ ['"'])

/-- `Debug for Vec<u8>`, between the brackets. -/
def printByteList : List UInt8 → Text
  | [] => []
  | [b] => printNat b.toNat
  | b :: bs => printNat b.toNat ++ [',', ' '] ++ printByteList bs

/-- `Display for LiteralValue`, lib.rs:1264-1274. -/
def printLiteral (std : Std) : Literal → Text
  | .bool true => "true".toList
  | .bool false => "false".toList
  | .int i => printInt i
  | .float f => std.showFloat f
  | .string s => printString std s
  | .bytes bs => '[' :: (printByteList bs ++ [']'])

end Mabo.Parse
