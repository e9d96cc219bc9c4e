import Verif.Ast
/-!
Specification of schema syntax: which names are well-formed, which type expressions can be written down, and where a
type expression ends. Independent of the parser: character classes are listed out.
-/
namespace Mabo.Spec
open Mabo.Ast

/-- `a` … `z`. -/
def lowers : List Char := "abcdefghijklmnopqrstuvwxyz".toList
/-- `A` … `Z`. -/
def uppers : List Char := "ABCDEFGHIJKLMNOPQRSTUVWXYZ".toList
/-- `0` … `9`. -/
def digits : List Char := "0123456789".toList

/-- A name with a first character from `head` and all others from `tail`. -/
def Ident (head tail : List Char) (n : String) : Prop :=
  ∃ c cs, n.toList = c :: cs ∧ c ∈ head ∧ ∀ d ∈ cs, d ∈ tail

/-- Names of modules, fields, attributes and path segments: `[a-z][a-z0-9_]*`. -/
def SnakeName (n : String) : Prop := Ident lowers (lowers ++ digits ++ ['_']) n
/-- References to types: `[A-Z][a-zA-Z0-9_]*`. -/
def RefName (n : String) : Prop := Ident uppers (lowers ++ uppers ++ digits ++ ['_']) n
/-- Names of structs, enums, variants, aliases and type parameters: `[A-Z][a-zA-Z0-9]*`. -/
def CamelName (n : String) : Prop := Ident uppers (lowers ++ uppers ++ digits) n
/-- Names of constants: `[A-Z][A-Z0-9_]*`. -/
def UpperName (n : String) : Prop := Ident uppers (uppers ++ digits ++ ['_']) n

/-- The built-in types without parameters that a module name can collide with. -/
def basicNames : List String :=
  ["bool", "u8", "u16", "u32", "u64", "u128", "i8", "i16", "i32", "i64", "i128", "f32", "f64", "string", "bytes"]
/-- The built-in types with parameters. -/
def genericNames : List String := ["vec", "hash_map", "hash_set", "option", "non_zero"]

/-- A module name that can start a path. The parser tries built-in types first, on a prefix of the path: the name up to
its first underscore must not be a basic type, nor the name up to its first digit a built-in generic type. -/
def PathStart (n : String) : Prop :=
  String.ofList (n.toList.takeWhile (· ≠ '_')) ∉ basicNames ∧
    String.ofList (n.toList.takeWhile (· ∉ digits)) ∉ genericNames

mutual
/-- Type expressions that can be written: all names are well-formed, tuples have an element, and a trailing comma is only
recorded where there are type arguments. -/
def TypeOk : DataType → Prop
  | .prim _ => True
  | .vec t | .hashSet t | .option t | .nonZero t | .array t _ => TypeOk t
  | .hashMap k v => TypeOk k ∧ TypeOk v
  | .tuple ts _ => ts ≠ [] ∧ TypeOks ts
  | .external path name generics trailing =>
    (∀ seg ∈ path, SnakeName seg) ∧ (∀ seg, path.head? = some seg → PathStart seg) ∧ RefName name ∧
      TypeOks generics ∧ (generics = [] → trailing = false)
/-- For all of them. -/
def TypeOks : List DataType → Prop
  | [] => True
  | t :: ts => TypeOk t ∧ TypeOks ts
end

/-- What follows does not continue a type expression: no further name character and no opening angle. -/
def TypeEnd (rest : List Char) : Prop :=
  ∀ c, rest.head? = some c → c ∉ lowers ++ uppers ++ digits ++ ['_', '&', '<']

/-- Literals that can be written: integers of the type `i128`, at least one byte. -/
def LiteralValid : Literal → Prop
  | .int i => -2 ^ 127 ≤ i ∧ i < 2 ^ 127
  | .bytes bs => bs ≠ []
  | _ => True

/-- Literals that survive printing: integers of the type `i128`, at least one byte, no NUL in a string. (A list of bytes
without elements cannot be written.) Floats depend on how the standard library prints them: see `FloatOk`. -/
def LiteralOk (floatOk : BitVec 64 → Prop) : Literal → Prop
  | .bool _ => True
  | .int i => -2 ^ 127 ≤ i ∧ i < 2 ^ 127
  | .float f => floatOk f
  | .string s => Char.ofNat 0 ∉ s.toList
  | .bytes bs => bs ≠ []

/-- What follows does not continue a number: no digit, point or exponent. -/
def LiteralEnd (rest : List Char) : Prop := ∀ c, rest.head? = some c → c ∉ digits ++ ['.', 'e', 'E']

/-- A decimal number with a point: `-?[0-9]+\.[0-9]+`. -/
def FloatText (t : List Char) : Prop :=
  ∃ sign int frac, t = sign ++ int ++ '.' :: frac ∧ (sign = [] ∨ sign = ['-']) ∧ int ≠ [] ∧ frac ≠ [] ∧
    (∀ c ∈ int, c ∈ digits) ∧ (∀ c ∈ frac, c ∈ digits)

/-- A float that is printed with a point (and without exponent) and whose text denotes the same float. -/
def FloatOk (showFloat : BitVec 64 → List Char) (readFloat : List Char → BitVec 64) (f : BitVec 64) : Prop :=
  FloatText (showFloat f) ∧ readFloat (showFloat f) = f

end Mabo.Spec
