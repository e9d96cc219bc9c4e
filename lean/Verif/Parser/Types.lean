import Verif.Ast
import Verif.Parser.Comb
/-!
Model of `crates/mabo-parser/src/parser/types.rs` and of the printing of types in `crates/mabo-parser/src/lib.rs`.

The parser is recursive: a type contains types. `typeBody rec` is the code of `types::parse` with `rec` in place of the
recursive calls; `parseType` closes the recursion with a depth that the input cannot exhaust (see
`Parser/TypesLemmas.lean`, `parseType_eq`).
-/
namespace Mabo.Parse
open Mabo.Ast
open Mabo.Schema (Prim)

/-- Characters of the dispatch in `parse_basic`, types.rs:72. -/
def isBasicChar (c : Char) : Bool := isLower c || isDigit c || c == '&'

/-- Dispatch of `parse_basic`, types.rs:71-91. -/
def basicOf (w : String) : Option Prim :=
  if w = "bool" then some .bool
  else if w = "u8" then some .u8
  else if w = "u16" then some .u16
  else if w = "u32" then some .u32
  else if w = "u64" then some .u64
  else if w = "u128" then some .u128
  else if w = "i8" then some .i8
  else if w = "i16" then some .i16
  else if w = "i32" then some .i32
  else if w = "i64" then some .i64
  else if w = "i128" then some .i128
  else if w = "f32" then some .f32
  else if w = "f64" then some .f64
  else if w = "string" then some .string
  else if w = "&string" then some .stringRef
  else if w = "bytes" then some .bytes
  else if w = "&bytes" then some .bytesRef
  else none

/-- `parse_basic`, types.rs:69-96. -/
def parseBasic : P DataType :=
  alt (do
    let w ← takeWhile 2 isBasicChar
    match basicOf (String.ofList w) with
    | some p => pure (.prim p)
    | none => fail)
  (alt (do lit "box<string>"; pure (.prim .boxString)) (do lit "box<bytes>"; pure (.prim .boxBytes)))

/-- Characters of the dispatch in `parse_generic`, types.rs:133. -/
def isGenericChar (c : Char) : Bool := isLower c || c == '_'

/-- `parse_single` in `parse_generic`, types.rs:99-112. -/
def parseSingle (rec : P DataType) : P DataType := cutErr (surround '<' '>' rec)

/-- `parse_pair` in `parse_generic`, types.rs:114-130. -/
def parsePair (rec : P DataType) : P (DataType × DataType) :=
  cutErr (surround '<' '>' (do
    let k ← rec
    sp (chr ',')
    let v ← sp rec
    pure (k, v)))

/-- `parse_generic`, types.rs:98-165. -/
def parseGeneric (rec : P DataType) : P DataType := do
  let w ← takeWhile 3 isGenericChar
  let w := String.ofList w
  if w = "vec" then do let t ← parseSingle rec; pure (.vec t)
  else if w = "hash_map" then do let (k, v) ← parsePair rec; pure (.hashMap k v)
  else if w = "hash_set" then do let t ← parseSingle rec; pure (.hashSet t)
  else if w = "option" then do let t ← parseSingle rec; pure (.option t)
  else if w = "non_zero" then do let t ← parseSingle rec; pure (.nonZero t)
  else fail

/-- `parse_tuple`, types.rs:167-177. -/
def parseTuple (rec : P DataType) : P DataType := do
  let (ts, trailing) ← surround '(' ')' (commaList (ws rec))
  pure (.tuple ts trailing)

/-- `parse_array`, types.rs:179-193. -/
def parseArray (rec : P DataType) : P DataType := do
  let (t, n) ← surround '[' ']' (do
    let t ← ws rec
    ws (chr ';')
    let n ← ws (decUint (2 ^ 32))
    pure (t, n))
  pure (.array t (BitVec.ofNat 32 n))

/-- Characters of a path segment, imports.rs:104-118 (also of module, field and attribute names). -/
def isSegChar (c : Char) : Bool := isLower c || isDigit c || c == '_'

/-- `imports::parse_segment`, imports.rs:104-118. -/
def parseSegment : P String := name isLower isSegChar

/-- Characters of an external name, types.rs:226. -/
def isExtChar (c : Char) : Bool := isAlnum c || c == '_'

/-- `parse_external_name`, types.rs:223-231. -/
def parseExternalName : P String := name isUpper isExtChar

/-- `parse_external`, types.rs:195-221. -/
def parseExternal (rec : P DataType) : P DataType := do
  let path ← opt (many1 (do let s ← parseSegment; lit "::"; pure s))
  let name ← parseExternalName
  let generics ← opt (surround '<' '>' (commaList (ws rec)))
  match generics with
  | some (ts, trailing) => pure (.external (path.getD []) name ts trailing)
  | none => pure (.external (path.getD []) name [] false)

/-- `types::parse`, types.rs:49-67, with `rec` for the recursive calls. -/
def typeBody (rec : P DataType) : P DataType :=
  alt parseBasic <| alt (parseGeneric rec) <| alt (parseTuple rec) <| alt (parseArray rec) (parseExternal rec)

/-- `typeBody` iterated to a depth. -/
def typeDepth : Nat → P DataType
  | 0 => fun _ => .cut
  | n + 1 => typeBody (typeDepth n)

/-- `types::parse`, types.rs:49-67. -/
def parseType : P DataType := fun s => typeDepth (s.length + 1) s

/-- `ids::parse`, parser.rs:122-134. -/
def parseId : P (BitVec 32) := do
  chr '@'
  let n ← decUint (2 ^ 32)
  pure (BitVec.ofNat 32 n)

/-! ### Printing, lib.rs -/

/-- `Display for DataType`, leaf arms, lib.rs:988-1020. -/
def printPrim : Prim → String
  | .bool => "bool"
  | .u8 => "u8"
  | .u16 => "u16"
  | .u32 => "u32"
  | .u64 => "u64"
  | .u128 => "u128"
  | .i8 => "i8"
  | .i16 => "i16"
  | .i32 => "i32"
  | .i64 => "i64"
  | .i128 => "i128"
  | .f32 => "f32"
  | .f64 => "f64"
  | .string => "string"
  | .stringRef => "&string"
  | .bytes => "bytes"
  | .bytesRef => "&bytes"
  | .boxString => "box<string>"
  | .boxBytes => "box<bytes>"

/-- `Display` of an unsigned number. -/
def printNat (n : Nat) : Text := Nat.toDigits 10 n

/-- `Display for Id`, lib.rs:1104-1109. -/
def printId (id : BitVec 32) : Text := '@' :: printNat id.toNat

/-- Part of `Display for ExternalType`, lib.rs:1047-1049. -/
def printPath : List String → Text
  | [] => []
  | s :: ss => s.toList ++ "::".toList ++ printPath ss

mutual
/-- `Display for DataType`, lib.rs:988-1020, with `ExternalType`, 1038-1056. -/
def printType : DataType → Text
  | .prim p => (printPrim p).toList
  | .vec t => "vec<".toList ++ printType t ++ ['>']
  | .hashMap k v => "hash_map<".toList ++ printType k ++ [',', ' '] ++ printType v ++ ['>']
  | .hashSet t => "hash_set<".toList ++ printType t ++ ['>']
  | .option t => "option<".toList ++ printType t ++ ['>']
  | .nonZero t => "non_zero<".toList ++ printType t ++ ['>']
  | .tuple ts trailing => ['('] ++ printTypes ts trailing ++ [')']
  | .array t n => ['['] ++ printType t ++ [';', ' '] ++ printNat n.toNat ++ [']']
  | .external path name generics trailing =>
    printPath path ++ name.toList ++
      (match generics with
      | [] => []
      | t :: ts => ['<'] ++ printTypes (t :: ts) trailing ++ ['>'])
/-- The values of `Punctuated::surround` on one line, punctuated.rs:79-92. -/
def printTypes : List DataType → Bool → Text
  | [], _ => []
  | [t], trailing => printType t ++ (if trailing then [','] else [])
  | t :: ts, trailing => printType t ++ [',', ' '] ++ printTypes ts trailing
end

end Mabo.Parse
