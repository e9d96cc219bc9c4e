/-! What is to be said about the files of a workspace and their URIs. -/
namespace Mabo.Preload

/-- An absolute path as text. -/
def pathText (p : List (List Char)) : List Char := p.flatMap ('/' :: ·)

/-- URIs that clients send have a scheme, which begins with a letter (RFC 3986, 3.1). -/
def HasScheme (u : List Char) : Prop := ∃ c rest, u = c :: rest ∧ c.isAlpha = true

/-- The URI of a file whose path needs no escapes. -/
def fileUri (p : List (List Char)) : List Char := "file://".toList ++ pathText p

/-- The value of a hexadecimal digit. -/
def hexDigit (c : Char) : Option Nat :=
  if '0' ≤ c ∧ c ≤ '9' then some (c.toNat - '0'.toNat)
  else if 'A' ≤ c ∧ c ≤ 'F' then some (c.toNat - 'A'.toNat + 10)
  else if 'a' ≤ c ∧ c ≤ 'f' then some (c.toNat - 'a'.toNat + 10)
  else none

/-- What is meant by the path of a URI: `%` and two digits stand for a byte (here: an ASCII character). -/
def unescape : List Char → List Char
  | '%' :: a :: b :: rest =>
    match hexDigit a, hexDigit b with
    | some x, some y => Char.ofNat (16 * x + y) :: unescape rest
    | _, _ => '%' :: unescape (a :: b :: rest)
  | c :: rest => c :: unescape rest
  | [] => []

end Mabo.Preload
