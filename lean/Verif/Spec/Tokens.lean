import Verif.Lsp.Tokens
import Verif.Spec.Lsp
/-!
Semantic tokens in the Language Server Protocol (3.17, "Semantic Tokens"), and which tokens a schema file has.
-/
namespace Mabo.Spec
open Mabo.Lsp
open Mabo.Ast
open Mabo.Schema (Prim)

/-- The contract of `Index::get_range`: the position of a byte offset between two parts of a text. -/
def PositionContract (enc : Encoding) (position : Text → Nat → Option Position) : Prop :=
  ∀ a b : Text, position (a ++ b) (bytes a) = some (posOf enc a)

/-- A token as the client sees it: where it starts, how long it is, its type and modifiers. -/
structure AbsToken where
  line : Nat
  start : Nat
  length : Nat
  type : Option String
  modifiers : List String
deriving DecidableEq, Repr

/-- How a client reads the response, given the legend: `deltaLine` and `deltaStart` are relative to the token before
(`deltaStart` only on the same line), the type is an index into the legend and the modifiers are bits. -/
def decode (types modifiers : List String) : Position → List SemanticToken → List AbsToken
  | _, [] => []
  | prev, t :: ts =>
    let line := prev.line + t.deltaLine
    let start := if t.deltaLine = 0 then prev.character + t.deltaStart else t.deltaStart
    { line, start, length := t.length, type := types[t.tokenType]?,
      modifiers := (modifiers.zipIdx.filter fun m => t.tokenModifiersBitset.testBit m.2).map (·.1) } ::
      decode types modifiers ⟨line, start⟩ ts

/-- A token that the file must have: its type, its modifiers, and what its text looks like. -/
structure Item where
  type : String
  modifiers : List String
  text : Text → Prop

/-- The tokens are the wanted ones, in the order of the text, without overlap, each on one line: `before` is the text up
to here, `rest` what follows. -/
def Highlighted (enc : Encoding) : (before rest : Text) → List AbsToken → List Item → Prop
  | _, _, [], [] => True
  | before, rest, t :: ts, i :: is => ∃ gap v rest', rest = gap ++ v ++ rest' ∧ v ≠ [] ∧ '\n' ∉ v ∧ i.text v ∧
      t = { line := (posOf enc (before ++ gap)).line, start := (posOf enc (before ++ gap)).character,
            length := (v.map (width enc)).sum, type := some i.type, modifiers := i.modifiers } ∧
      Highlighted enc (before ++ gap ++ v) rest' ts is
  | _, _, _, _ => False

/-! ### The tokens of a schema -/

/-- A fixed word. -/
def word (type : String) (w : String) (modifiers : List String := []) : Item := ⟨type, modifiers, (· = w.toList)⟩

/-- A declared name. -/
def declared (type : String) (w : String) : Item := word type w ["declaration"]

/-- A comment line: three slashes, blanks and its text. -/
def commentItem (l : String) : Item :=
  ⟨"comment", ["documentation"], fun v => ∃ b : Text, (∀ c ∈ b, c = ' ' ∨ c = '\t') ∧ v = "///".toList ++ b ++ l.toList⟩

/-- The spelling of the built-in types. -/
def spelling : Prim → String
  | .bool => "bool"
  | .u8 => "u8"
  | .u16 => "u16"
  | .u32 => "u32"
  | .u64 => "u64"
  | .u128 => "u128"
  | .i8 => "i8"
  | .i16 => "i16"
  | .i32 => "i32"
  | .i64 => "i64"
  | .i128 => "i128"
  | .f32 => "f32"
  | .f64 => "f64"
  | .string => "string"
  | .stringRef => "&string"
  | .bytes => "bytes"
  | .bytesRef => "&bytes"
  | .boxString => "box<string>"
  | .boxBytes => "box<bytes>"

/-- Parts separated by commas. -/
def separatedItems : List (List Item) → (trailing : Bool) → List Item
  | [], _ => []
  | [x], t => x ++ (if t then [word "comma" ","] else [])
  | x :: xs, t => x ++ word "comma" "," :: separatedItems xs t

/-- Parts between delimiters. -/
def delimitedItems (type o c : String) (inner : List Item) : List Item := word type o :: (inner ++ [word type c])

mutual
/-- A type. The length of an array has no token. -/
def typeItems : DataType → List Item
  | .prim p => [word "builtinType" (spelling p)]
  | .vec t => word "builtinType" "vec" :: delimitedItems "angle" "<" ">" (typeItems t)
  | .hashSet t => word "builtinType" "hash_set" :: delimitedItems "angle" "<" ">" (typeItems t)
  | .option t => word "builtinType" "option" :: delimitedItems "angle" "<" ">" (typeItems t)
  | .nonZero t => word "builtinType" "non_zero" :: delimitedItems "angle" "<" ">" (typeItems t)
  | .hashMap k v =>
    word "builtinType" "hash_map" :: delimitedItems "angle" "<" ">" (typeItems k ++ word "comma" "," :: typeItems v)
  | .tuple ts trailing => delimitedItems "parenthesis" "(" ")" (separatedItems (typesItems ts) trailing)
  | .array t _ => delimitedItems "bracket" "[" "]" (typeItems t ++ [word "semicolon" ";"])
  | .external path name generics trailing =>
    path.flatMap (fun p => [word "namespace" p, word "doubleColon" "::"]) ++ word "type" name ::
      (if generics.isEmpty then [] else delimitedItems "angle" "<" ">" (separatedItems (typesItems generics) trailing))
/-- For each type. -/
def typesItems : List DataType → List (List Item)
  | [] => []
  | t :: ts => typeItems t :: typesItems ts
end

/-- An id: `@` and the number. -/
def idItems : Option (BitVec 32) → List Item
  | none => []
  | some id => [⟨"identifier", [], fun v => v = '@' :: Nat.toDigits 10 id.toNat⟩]

/-- A named field. -/
def namedFieldItems (f : NamedField) : List Item :=
  f.comment.map commentItem ++ declared "property" f.name :: word "colon" ":" :: (typeItems f.ty ++ idItems f.id)

/-- A field without name. -/
def unnamedFieldItems (f : UnnamedField) : List Item := typeItems f.ty ++ idItems f.id

/-- The fields of a struct or variant. -/
def fieldsItems : Fields → List Item
  | .named fs t => delimitedItems "brace" "{" "}" (separatedItems (fs.map namedFieldItems) t)
  | .unnamed fs t => delimitedItems "parenthesis" "(" ")" (separatedItems (fs.map unnamedFieldItems) t)
  | .unit => []

/-- Type parameters; their angles have no tokens. -/
def genericsItems (gs : List String) (trailing : Bool) : List Item :=
  separatedItems (gs.map fun g => [declared "typeParameter" g]) trailing

/-- A variant. -/
def variantItems (v : Variant) : List Item :=
  v.comment.map commentItem ++ declared "enumMember" v.name :: (fieldsItems v.fields ++ idItems v.id)

/-- A literal: its text alone is read as that literal. Strings and bytes have no token. -/
def literalItems (std : Parse.Std) (l : Literal) : List Item := match l with
  | .bool _ => [⟨"boolean", [], fun v => Parse.parseLiteral std v = .ok l []⟩]
  | .int _ => [⟨"number", [], fun v => Parse.parseLiteral std v = .ok l []⟩]
  | .float _ => [⟨"number", [], fun v => Parse.parseLiteral std v = .ok l []⟩]
  | .string _ => []
  | .bytes _ => []

mutual
/-- A definition; comments come first. Attributes, and the comments of imports, have no tokens. -/
def definitionItems (std : Parse.Std) : Definition → List Item
  | .module comment name ds => comment.map commentItem ++ word "keyword" "mod" :: declared "namespace" name ::
      delimitedItems "brace" "{" "}" (definitionsItems std ds)
  | .struct s => s.comment.map commentItem ++ word "keyword" "struct" :: declared "struct" s.name ::
      (genericsItems s.generics s.genericsTrailing ++ fieldsItems s.fields)
  | .enum e => e.comment.map commentItem ++ word "keyword" "enum" :: declared "enum" e.name ::
      (genericsItems e.generics e.genericsTrailing ++
        delimitedItems "brace" "{" "}" (separatedItems (e.variants.map variantItems) e.variantsTrailing))
  | .typeAlias a => a.comment.map commentItem ++ word "keyword" "type" :: declared "typeAlias" a.name ::
      (genericsItems a.generics a.genericsTrailing ++ word "equal" "=" :: (typeItems a.target ++ [word "semicolon" ";"]))
  | .const c => c.comment.map commentItem ++ word "keyword" "const" ::
      word "variable" c.name ["declaration", "static", "constant"] :: word "colon" ":" :: (typeItems c.ty ++
        word "equal" "=" :: (literalItems std c.value ++ [word "semicolon" ";"]))
  | .import i => word "keyword" "use" :: (i.segments.map (word "namespace") ++
      (match i.element with
      | some e => [word "doubleColon" "::", word "type" e]
      | none => []))
/-- For all of them. -/
def definitionsItems (std : Parse.Std) : List Definition → List Item
  | [] => []
  | d :: ds => definitionItems std d ++ definitionsItems std ds
end

end Mabo.Spec
