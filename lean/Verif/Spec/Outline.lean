import Verif.Lsp.Symbols
import Verif.Lsp.Hover
import Verif.Spec.Tokens
import Verif.Spec.Compiler
import Verif.Spec.Simplify
/-!
The outline of a schema file, where its parts are in the text, and what is shown about them.
-/
namespace Mabo.Spec.Doc
open Mabo.Spec
open Mabo.Lsp
open Mabo.Ast

/-! ### Places -/

/-- A place in a text: what is before it, and what is there. -/
structure Place where
  before : Text
  here : Text

/-- Its range in the units of the client. -/
def Place.range (enc : Encoding) (p : Place) : Position × Position := (posOf enc p.before, posOf enc (p.before ++ p.here))

/-- The cursor behind the text `a` is on the first to the last character of the place. -/
def Place.Under (a : Text) (p : Place) : Prop := p.before.length ≤ a.length ∧ a.length < p.before.length + p.here.length

/-- What is said about a declared thing in addition to its comment: the next free id of its fields or variants (which
are given these ids), or the size of its type. -/
inductive Note where
  | nothing
  | nextId (given : List (Option (BitVec 32)))
  | wireSize (t : DataType)

/-- A part of a file: what its text looks like; the kind and name of the thing it declares; its comment and note. -/
structure Segment where
  text : Text → Prop
  symbol : Option (SymbolKind × String) := none
  hover : Option (List String × Note) := none

/-- The places are those of the parts, one after the other, without overlap: `before` is the text up to here, `rest` what
follows. -/
def Placed : (before rest : Text) → List Place → List Segment → Prop
  | _, _, [], [] => True
  | before, rest, p :: ps, t :: ts => ∃ gap rest', rest = gap ++ p.here ++ rest' ∧ p.before = before ++ gap ∧
      p.here ≠ [] ∧ t.text p.here ∧ Placed (before ++ gap ++ p.here) rest' ps ts
  | _, _, _, _ => False

/-! ### The parts of a schema -/

/-- A token that declares nothing. -/
def plain (i : Item) : Segment := { text := i.text }

/-- A declared name. -/
def names (kind : SymbolKind) (name : String) (comment : List String) (note : Note) : Segment :=
  { text := (· = name.toList), symbol := some (kind, name), hover := some (comment, note) }

/-- The text starts with the first item, ends with the last one, and has the others in between, in order. -/
inductive Spells : Text → List Item → Prop
  | one {v : Text} {i : Item} : i.text v → Spells v [i]
  | cons {v gap u : Text} {i : Item} {is : List Item} : i.text v → Spells u is → Spells (v ++ gap ++ u) (i :: is)

/-- Parts separated by commas. -/
def separatedParts : List (List Segment) → (trailing : Bool) → List Segment
  | [], _ => []
  | [x], t => x ++ (if t then [plain (word "comma" ",")] else [])
  | x :: xs, t => x ++ plain (word "comma" ",") :: separatedParts xs t

/-- Parts between delimiters. -/
def delimitedParts (o c : String) (inner : List Segment) : List Segment :=
  plain (word "" o) :: (inner ++ [plain (word "" c)])

/-- The comment in front of something. -/
def commentParts (lines : List String) : List Segment := lines.map fun l => plain (commentItem l)

/-- A named field. -/
def namedFieldParts (f : NamedField) : List Segment :=
  commentParts f.comment ++ names .property f.name f.comment (.wireSize f.ty) :: plain (word "colon" ":") ::
    (typeItems f.ty ++ idItems f.id).map plain

/-- A field without name: blanks, its type and its id. Its name in the outline is its position. -/
def unnamedFieldPart (f : UnnamedField) (i : Nat) : Segment :=
  { text := fun v => ∃ b u : Text, v = b ++ u ∧ (∀ c ∈ b, c = ' ' ∨ c = '\t' ∨ c = '\r' ∨ c = '\n') ∧
      Spells u (unnamedFieldItems f),
    symbol := some (.property, Nat.repr i) }

/-- The fields of a struct or variant. -/
def fieldsParts : Fields → List Segment
  | .named fs t => delimitedParts "{" "}" (separatedParts (fs.map namedFieldParts) t)
  | .unnamed fs t => delimitedParts "(" ")" (separatedParts (fs.zipIdx.map fun x => [unnamedFieldPart x.1 x.2]) t)
  | .unit => []

/-- The note of a struct or variant: nothing without fields. -/
def fieldsNote : Fields → Note
  | .unit => .nothing
  | fs => .nextId (givenIds fs)

/-- A variant. -/
def variantParts (v : Variant) : List Segment :=
  commentParts v.comment ++ names .enumMember v.name v.comment (fieldsNote v.fields) ::
    (fieldsParts v.fields ++ (idItems v.id).map plain)

/-- Type parameters. -/
def genericsParts (gs : List String) (trailing : Bool) : List Segment := (genericsItems gs trailing).map plain

/-- The path of an import as it is written. -/
def pathText (i : Import) : String := match i.segments ++ i.element.toList with
  | [] => ""
  | n :: ns => n ++ String.join (ns.map ("::" ++ ·))

mutual
/-- A definition. -/
def definitionParts (std : Parse.Std) : Definition → List Segment
  | .module comment name ds => commentParts comment ++ plain (word "keyword" "mod") ::
      names .module name comment .nothing :: delimitedParts "{" "}" (definitionsParts std ds)
  | .struct s => commentParts s.comment ++ plain (word "keyword" "struct") ::
      names .struct s.name s.comment (fieldsNote s.fields) ::
      (genericsParts s.generics s.genericsTrailing ++ fieldsParts s.fields)
  | .enum e => commentParts e.comment ++ plain (word "keyword" "enum") ::
      names .enum e.name e.comment (.nextId (e.variants.map (·.id))) ::
      (genericsParts e.generics e.genericsTrailing ++
        delimitedParts "{" "}" (separatedParts (e.variants.map variantParts) e.variantsTrailing))
  | .typeAlias a => commentParts a.comment ++ plain (word "keyword" "type") ::
      names .variable a.name a.comment .nothing :: (genericsParts a.generics a.genericsTrailing ++
        (word "equal" "=" :: (typeItems a.target ++ [word "semicolon" ";"])).map plain)
  | .const c => commentParts c.comment ++ plain (word "keyword" "const") ::
      names .constant c.name c.comment .nothing :: (word "colon" ":" :: (typeItems c.ty ++
        word "equal" "=" :: (literalItems std c.value ++ [word "semicolon" ";"]))).map plain
  | .import i => [plain (word "keyword" "use"),
      { text := (· = (pathText i).toList), symbol := some (.file, pathText i) }]
/-- For all of them. -/
def definitionsParts (std : Parse.Std) : List Definition → List Segment
  | [] => []
  | d :: ds => definitionParts std d ++ definitionsParts std ds
end

/-! ### The outline -/

/-- Kinds and names, as a tree. -/
inductive Outline where
  | node (kind : SymbolKind) (name : String) (children : List Outline)

/-- The fields of a struct or variant. -/
def outlineFields : Fields → List Outline
  | .named fs _ => fs.map fun f => .node .property f.name []
  | .unnamed fs _ => fs.zipIdx.map fun x => .node .property (Nat.repr x.2) []
  | .unit => []

mutual
/-- A definition. -/
def outlineDefinition : Definition → Outline
  | .module _ name ds => .node .module name (outlineDefinitions ds)
  | .struct s => .node .struct s.name (outlineFields s.fields)
  | .enum e => .node .enum e.name (e.variants.map fun v => .node .enumMember v.name (outlineFields v.fields))
  | .typeAlias a => .node .variable a.name []
  | .const c => .node .constant c.name []
  | .import i => .node .file (pathText i) []
/-- For all of them. -/
def outlineDefinitions : List Definition → List Outline
  | [] => []
  | d :: ds => outlineDefinition d :: outlineDefinitions ds
end

mutual
/-- The kinds and names of a response. -/
def shape : Symbol → Outline
  | .mk name kind _ _ none => .node kind name []
  | .mk name kind _ _ (some cs) => .node kind name (shapes cs)
/-- For all of them. -/
def shapes : List Symbol → List Outline
  | [] => []
  | s :: ss => shape s :: shapes ss
end

/-- An entry of a response: kind and name, the range of the whole and the one to select. -/
abbrev Entry := (SymbolKind × String) × (Position × Position) × (Position × Position)

mutual
/-- The entries of a response, parents before children. -/
def entries : Symbol → List Entry
  | .mk name kind r s none => [((kind, name), r, s)]
  | .mk name kind r s (some cs) => ((kind, name), r, s) :: entriesOf cs
/-- For all of them. -/
def entriesOf : List Symbol → List Entry
  | [] => []
  | s :: ss => entries s ++ entriesOf ss
end

/-- The entry of a part at a place, if it declares something. -/
def entryOf (enc : Encoding) (p : Place) (g : Segment) : Option Entry := g.symbol.map fun s => (s, p.range enc, p.range enc)

/-! ### What is shown -/

/-- The number is larger than all ids, and the least such number above 0. -/
def NextFreeId (ids : List (BitVec 32)) (n : Nat) : Prop :=
  1 ≤ n ∧ (∀ id ∈ ids, id.toNat < n) ∧ ∀ m, 1 ≤ m → (∀ id ∈ ids, id.toNat < m) → n ≤ m

mutual
/-- A type with its references resolved, in whatever way. -/
inductive Resolves : DataType → Schema.Ty → Prop
  | prim (p) : Resolves (.prim p) (.prim p)
  | vec {t u} : Resolves t u → Resolves (.vec t) (.vec u)
  | hashMap {k v k' v'} : Resolves k k' → Resolves v v' → Resolves (.hashMap k v) (.hashMap k' v')
  | hashSet {t u} : Resolves t u → Resolves (.hashSet t) (.hashSet u)
  | option {t u} : Resolves t u → Resolves (.option t) (.option u)
  | nonZero {t u} : Resolves t u → Resolves (.nonZero t) (.nonZero u)
  | tuple {ts us tr} : ResolvesAll ts us → Resolves (.tuple ts tr) (.tuple us)
  | array {t u n} : Resolves t u → Resolves (.array t n) (.array u n.toNat)
  | ext {p n ts tr i us} : Resolves (.external p n ts tr) (.ext i us)
  | param {p n ts tr i} : Resolves (.external p n ts tr) (.param i)
  | inst {p n ts tr d} : Resolves (.external p n ts tr) (.inst d)
/-- For all of them. -/
inductive ResolvesAll : List DataType → List Schema.Ty → Prop
  | nil : ResolvesAll [] []
  | cons {t u ts us} : Resolves t u → ResolvesAll ts us → ResolvesAll (t :: ts) (u :: us)
end

/-- How a type is called in the overview. -/
def typeLabel : DataType → String
  | .prim p => spelling p
  | .vec _ => "vec"
  | .hashMap _ _ => "hash_map"
  | .hashSet _ => "hash_set"
  | .option _ => "option"
  | .nonZero _ => "non_zero"
  | .tuple _ _ => "tuple"
  | .array _ _ => "array"
  | .external _ name _ _ => name

/-- Bounds of a size: one number, a range, or a range without end. -/
def boundsText (s : Meta.WireSize) : String :=
  if s.max = some s.min then "`" ++ Nat.repr s.min ++ "`"
  else "`" ++ Nat.repr s.min ++ ".." ++ (s.max.elim "" Nat.repr) ++ "`"

/-- The number of groups of seven bits of a number. -/
def Groups (n k : Nat) : Prop := 1 ≤ k ∧ n < 128 ^ k ∧ ∀ j, 1 ≤ j → n < 128 ^ j → k ≤ j

/-- What the overview says about the length in front of the elements. -/
inductive LengthText : DataType → String → Prop
  | array {t n k} : Groups n.toNat k → LengthText (.array t n) ("**u64** `" ++ Nat.repr k ++ "`")
  | vec {t} : LengthText (.vec t) "**u64** `1..10`"
  | hashMap {k v} : LengthText (.hashMap k v) "**u64** `1..10`"
  | hashSet {t} : LengthText (.hashSet t) "**u64** `1..10`"

/-- The parts of the values of a type, in the overview. Nothing stands for the length. -/
def breakdown : DataType → List (String × Option DataType)
  | .prim _ => []
  | .vec t => [("length", none), ("element", some t)]
  | .hashMap k v => [("length", none), ("key", some k), ("value", some v)]
  | .hashSet t => [("length", none), ("element", some t)]
  | .option t => [("value", some t)]
  | .nonZero t => [("value", some t)]
  | .tuple ts _ => ts.zipIdx.map fun x => (Nat.repr x.2, some x.1)
  | .array t _ => [("length", none), ("element", some t)]
  | .external _ _ _ _ => []

mutual
/-- The overview of the size of a type, for the nesting `indent`: its name and the bounds of `Meta.wireSize` (C35), whatever
its references mean, and a list of its parts. -/
inductive SizeText : (indent : Nat) → DataType → String → Prop
  | unknown {indent p n ts tr} : SizeText indent (.external p n ts tr) "_unknown_"
  | known {indent t size s} : (∀ p n ts tr, t ≠ .external p n ts tr) → (∀ u, Resolves t u → Meta.wireSize u = some size) →
      BreakdownText indent t (breakdown t) s → SizeText indent t ("**" ++ typeLabel t ++ "** " ++ boundsText size ++ s)
/-- The list, one line each, two more spaces in front. -/
inductive BreakdownText : (indent : Nat) → DataType → List (String × Option DataType) → String → Prop
  | nil {indent whole} : BreakdownText indent whole [] ""
  | length {indent whole label s rest ps} : LengthText whole s → BreakdownText indent whole ps rest →
      BreakdownText indent whole ((label, none) :: ps)
        ("\n" ++ String.ofList (List.replicate (indent + 2) ' ') ++ "- " ++ label ++ ": " ++ s ++ rest)
  | part {indent whole label t s rest ps} : SizeText (indent + 2) t s → BreakdownText indent whole ps rest →
      BreakdownText indent whole ((label, some t) :: ps)
        ("\n" ++ String.ofList (List.replicate (indent + 2) ' ') ++ "- " ++ label ++ ": " ++ s ++ rest)
end

/-- The text of a note; `checked` are builds in which numbers do not overflow. -/
def NoteText (config : HoverConfig) (checked : Bool) : Note → String → Prop
  | .nothing, s => s = ""
  | .nextId given, s =>
    if config.showNextId then
      ∃ ids n, Assigned given ids ∧ s = "- next ID: `" ++ Nat.repr n ++ "`\n" ∧
        ((∀ id ∈ ids, id.toNat ≠ 2 ^ 32 - 1) → NextFreeId ids n) ∧
        ((∃ id ∈ ids, id.toNat = 2 ^ 32 - 1) → checked = false ∧ n = 0)
    else s = ""
  | .wireSize t, s =>
    if config.showWireSize then ∃ overview, SizeText 0 t overview ∧ s = "### Wire size\n\n" ++ overview else s = ""

/-- All that is shown: the lines of the comment, then the note. -/
def HoverText (config : HoverConfig) (checked : Bool) (comment : List String) (note : Note) (s : String) : Prop :=
  ∃ n, NoteText config checked note n ∧ s = String.join (comment.map (· ++ "\n")) ++ n

end Mabo.Spec.Doc
