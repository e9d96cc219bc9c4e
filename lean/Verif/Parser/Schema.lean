import Verif.Parser.Literals
/-!
Model of the definition parsers of `crates/mabo-parser/src/parser.rs` and `crates/mabo-parser/src/parser/` (structs,
enums, fields, generics, aliases, consts, imports, modules, attributes, comments), of the printing of definitions in
`crates/mabo-parser/src/lib.rs` and `punctuated.rs`, and of `mabo fmt` (`crates/mabo-cli/src/main.rs:58-79`).

Modules and attributes nest: `defBody rec` and `attrBody rec` are the code with `rec` in place of the recursive calls,
closed with a depth that the input cannot exhaust (`Parser/SchemaLemmas.lean`).
-/
namespace Mabo.Parse
open Mabo.Ast

/-! ### Comments and attributes -/

/-- One line of `comments::parse`, parser.rs:183-192. -/
def commentLine : P String := do
  let _ ← space0
  lit "///"
  let _ ← space0
  let v ← takeWhile 0 (· != '\n')
  chr '\n'
  pure (String.ofList v)

/-- `comments::parse`, parser.rs:179-203. -/
def parseComments : P (List String) := many commentLine

/-- `separated(1.., ws((parse_name, parse_value)), ws(Comma))`, `opt(Comma)` and the closing delimiter,
attributes.rs:69-81 and 105-117. -/
def attrList (close : Char) (rec : P Attribute) : P (List Attribute) := do
  let as ← separated1 (ws rec) (ws (chr ','))
  let _ ← opt (chr ',')
  ws (chr close)
  pure as

/-- `parse_single_value`, attributes.rs:120-126, applied to the name. -/
def attrSingle (std : Std) (n : String) : P Attribute := do
  let _ ← space0
  chr '='
  let _ ← space0
  let l ← parseLiteral std
  pure (.single n l)

/-- `(parse_name, parse_value)`, attributes.rs:73 and 84-130, with `rec` for the nested attributes. -/
def attrBody (std : Std) (rec : P Attribute) : P Attribute := do
  let n ← parseSegment
  alt (do chr '('; let as ← cutErr (attrList ')' rec); pure (.multi n as)) <|
    alt (attrSingle std n) (pure (.unit n))

/-- `attrBody` iterated to a depth. -/
def attrDepth (std : Std) : Nat → P Attribute
  | 0 => fun _ => .cut
  | n + 1 => attrBody std (attrDepth std n)

/-- `(parse_name, parse_value)`, attributes.rs:84-130. -/
def parseAttr (std : Std) : P Attribute := fun s => attrDepth std (s.length + 1) s

/-- `parse_attribute`, attributes.rs:66-82. -/
def parseAttribute (std : Std) : P (List Attribute) := do
  lit "#"
  chr '['
  cutErr (attrList ']' (parseAttr std))

/-- `attributes::parse`, attributes.rs:48-64. -/
def parseAttributes (std : Std) : P (List Attribute) := do
  let ass ← many (do let as ← parseAttribute std; chr '\n'; pure as)
  pure ass.flatten

/-! ### Fields and generics -/

/-- `opt(preceded(space0, ids::parse))`. -/
def optId : P (Option (BitVec 32)) := opt (sp parseId)

/-- `parse_named_field`, fields.rs:129-149; the name is as in imports.rs:104-118. -/
def parseNamedField : P NamedField := do
  let comment ← ws parseComments
  let name ← sp parseSegment
  sp (chr ':')
  let ty ← sp parseType
  let id ← optId
  pure { comment, name, ty, id }

/-- `parse_unnamed_field`, fields.rs:115-127. -/
def parseUnnamedField : P UnnamedField := do
  let ty ← ws parseType
  let id ← optId
  pure { ty, id }

/-- `fields::parse`, fields.rs:73-113. -/
def parseFields : P Fields := do
  let c ← peekAny
  if c = '{' then do
    let (fs, t) ← surround '{' '}' (commaList parseNamedField)
    pure (.named fs t)
  else if c = '(' then do
    let (fs, t) ← surround '(' ')' (commaList parseUnnamedField)
    pure (.unnamed fs t)
  else pure .unit

/-- Names of structs, enums, variants, aliases and type parameters: structs.rs:97-108, enums.rs:114-125 and 157-166,
aliases.rs:96-107, generics.rs:60-71. -/
def parseCamel : P String := name isUpper isAlnum

/-- `opt(generics::parse)`, generics.rs:45-58; the second component is the trailing comma. -/
def parseGenerics : P (List String × Bool) := do
  let o ← opt (surround '<' '>' (commaList (ws parseCamel)))
  pure (o.getD ([], false))

/-! ### Definitions -/

/-- `structs::parse`, structs.rs:65-95. -/
def parseStruct : P Struct := do
  lit "struct"
  let _ ← space1
  cutErr (do
    let name ← parseCamel
    let g ← parseGenerics
    let fields ← sp parseFields
    pure { name, generics := g.1, genericsTrailing := g.2, fields })

/-- `parse_variant`, enums.rs:137-155. -/
def parseVariant : P Variant := do
  let comment ← ws parseComments
  let name ← sp parseCamel
  let fields ← sp parseFields
  let id ← optId
  pure { comment, name, fields, id }

/-- `enums::parse`, enums.rs:87-112. -/
def parseEnum : P Enum := do
  lit "enum"
  let _ ← space1
  cutErr (do
    let name ← parseCamel
    let g ← parseGenerics
    let vs ← sp (surround '{' '}' (commaList parseVariant))
    pure { name, generics := g.1, genericsTrailing := g.2, variants := vs.1, variantsTrailing := vs.2 })

/-- `aliases::parse`, aliases.rs:65-94. -/
def parseAlias : P TypeAlias := do
  lit "type"
  let _ ← space1
  cutErr (do
    let name ← parseCamel
    let g ← parseGenerics
    sp (chr '=')
    let target ← sp parseType
    sp (chr ';')
    pure { name, generics := g.1, genericsTrailing := g.2, target })

/-- Characters of a constant's name after the first, consts.rs:117. -/
def isConstChar (c : Char) : Bool := isUpper c || isDigit c || c == '_'

/-- `consts::parse`, consts.rs:78-128. -/
def parseConst (std : Std) : P Const := do
  lit "const"
  let _ ← space1
  cutErr (do
    let name ← name isUpper isConstChar
    chr ':'
    let ty ← sp parseType
    sp (chr '=')
    let value ← sp (parseLiteral std)
    chr ';'
    pure { name, ty, value })

/-- `imports::parse`, imports.rs:65-102. The name of the element is parsed by two equal parsers in turn. -/
def parseImport : P Import := do
  lit "use"
  let _ ← space1
  cutErr (do
    let segments ← separated1 parseSegment (lit "::")
    let element ← opt (do lit "::"; alt parseCamel parseCamel)
    chr ';'
    pure { segments, element })

/-- `modules::parse`, modules.rs:62-105, with `rec` for `parse_definition`. -/
def parseModule (rec : P Definition) : P Definition := do
  lit "mod"
  let _ ← space1
  cutErr (do
    let name ← parseSegment
    let ds ← sp (surround '{' '}' (many (ws rec)))
    pure (.module [] name ds))

/-- `with_comment`, lib.rs:226-236. -/
def withComment (d : Definition) (comment : List String) : Definition := match d with
  | .module _ n ds => .module comment n ds
  | .struct s => .struct { s with comment }
  | .enum e => .enum { e with comment }
  | .typeAlias a => .typeAlias { a with comment }
  | .const c => .const { c with comment }
  | .import i => .import i

/-- `with_attributes`, lib.rs:238-249. -/
def withAttributes (d : Definition) (attributes : List Attribute) : Definition := match d with
  | .struct s => .struct { s with attributes }
  | .enum e => .enum { e with attributes }
  | d => d

/-- The dispatch of `parse_definition`, parser.rs:83-92. -/
def defKind (std : Std) (rec : P Definition) : P Definition := do
  let c ← peekAny
  if c = 'm' then parseModule rec
  else if c = 's' then do let s ← parseStruct; pure (.struct s)
  else if c = 'e' then do let e ← parseEnum; pure (.enum e)
  else if c = 'c' then do let k ← parseConst std; pure (.const k)
  else if c = 't' then do let a ← parseAlias; pure (.typeAlias a)
  else if c = 'u' then do let i ← parseImport; pure (.import i)
  else fail

/-- `parse_definition`, parser.rs:78-98, with `rec` for the definitions of a module. -/
def defBody (std : Std) (rec : P Definition) : P Definition := do
  let comment ← ws parseComments
  let attributes ← ws (parseAttributes std)
  let d ← sp (defKind std rec)
  pure (withAttributes (withComment d comment) attributes)

/-- `defBody` iterated to a depth. -/
def defDepth (std : Std) : Nat → P Definition
  | 0 => fun _ => .cut
  | n + 1 => defBody std (defDepth std n)

/-- `parse_definition`, parser.rs:78-98. -/
def parseDefinition (std : Std) : P Definition := fun s => defDepth std (s.length + 1) s

/-- `parse_schema`, parser.rs:51-76. -/
def schemaParser (std : Std) : P Schema := do
  let comment ← opt (do let c ← ws parseComments; chr '\n'; pure c)
  let definitions ← many (parseDefinition std)
  let _ ← multi0
  pure { comment := comment.getD [], definitions }

/-- `Schema::parse`, lib.rs:160-174: the whole text must be consumed. -/
def parseSchema (std : Std) (text : Text) : Option Schema := match schemaParser std text with
  | .ok s [] => some s
  | _ => none

/-! ### Printing -/

/-- `Print::indent`, lib.rs:57-65. -/
def indent (level : Nat) : Text := List.replicate (4 * level) ' '

/-- `Print for Comment`, lib.rs:698-709, and `Display for CommentLine`, lib.rs:740-744. -/
def printComment (level : Nat) : List String → Text
  | [] => []
  | l :: ls => indent level ++ "/// ".toList ++ l.toList ++ '\n' :: printComment level ls

mutual
/-- `Display for Attribute`, lib.rs:794-808, and for `AttributeValue`, lib.rs:821-829. -/
def printAttr (std : Std) : Attribute → Text
  | .unit n => n.toList
  | .single n l => n.toList ++ " = ".toList ++ printLiteral std l
  | .multi n [] => n.toList
  | .multi n as => n.toList ++ '(' :: (printAttrs std as ++ [')'])
/-- `concat`, lib.rs:1318-1339, between the delimiters. -/
def printAttrs (std : Std) : List Attribute → Text
  | [] => []
  | [a] => printAttr std a
  | a :: as => printAttr std a ++ ", ".toList ++ printAttrs std as
end

/-- `Print for Attributes`, lib.rs:765-778. -/
def printAttributes (std : Std) (level : Nat) : List Attribute → Text
  | [] => []
  | as => indent level ++ '#' :: '[' :: (printAttrs std as ++ "]\n".toList)

/-- `Punctuated::surround` on one line, punctuated.rs:66-95, for the texts of the values. -/
def inline (o c : Char) (items : List Text) (trailing : Bool) : Text :=
  o :: (go items ++ [c])
where
  /-- The values and separators. -/
  go : List Text → Text
    | [] => []
    | [t] => t ++ (if trailing then [','] else [])
    | t :: ts => t ++ ", ".toList ++ go ts

/-- `Punctuated::surround` with line breaks, punctuated.rs:66-95, for the texts of the values. -/
def block (level : Nat) (items : List Text) (trailing : Bool) : Text :=
  '{' :: '\n' :: (go items ++ '\n' :: (indent level ++ ['}']))
where
  /-- The values and separators. -/
  go : List Text → Text
    | [] => []
    | [t] => t ++ (if trailing then [','] else [])
    | t :: ts => t ++ ",\n".toList ++ go ts

/-- `if let Some(id) = id { write!(f, " {id}") }`. -/
def printOptId : Option (BitVec 32) → Text
  | none => []
  | some id => ' ' :: printId id

/-- `Print for NamedField`, lib.rs:609-631. -/
def printNamedField (level : Nat) (f : NamedField) : Text :=
  printComment level f.comment ++ indent level ++ f.name.toList ++ ": ".toList ++ printType f.ty ++ printOptId f.id

/-- `Print for UnnamedField`, lib.rs:669-680. -/
def printUnnamedField (f : UnnamedField) : Text := printType f.ty ++ printOptId f.id

/-- `Print for Fields`, lib.rs:564-575. -/
def printFields (level : Nat) : Fields → Text
  | .named fs t => ' ' :: block level (fs.map (printNamedField (level + 1))) t
  | .unnamed fs t => inline '(' ')' (fs.map printUnnamedField) t
  | .unit => []

/-- `Display for Generics`, lib.rs:1071-1075 (none if there are no type parameters). -/
def printGenerics (gs : List String) (trailing : Bool) : Text :=
  if gs = [] then [] else inline '<' '>' (gs.map String.toList) trailing

/-- `Print for Variant`, lib.rs:448-468. -/
def printVariant (level : Nat) (v : Variant) : Text :=
  printComment level v.comment ++ indent level ++ v.name.toList ++ printFields level v.fields ++ printOptId v.id

/-- `Print for Struct`, lib.rs:336-358. -/
def printStruct (std : Std) (level : Nat) (s : Struct) : Text :=
  printComment level s.comment ++ printAttributes std level s.attributes ++ indent level ++ "struct ".toList ++
    s.name.toList ++ printGenerics s.generics s.genericsTrailing ++ printFields level s.fields ++ ['\n']

/-- `Print for Enum`, lib.rs:400-425. -/
def printEnum (std : Std) (level : Nat) (e : Enum) : Text :=
  printComment level e.comment ++ printAttributes std level e.attributes ++ indent level ++ "enum ".toList ++
    e.name.toList ++ printGenerics e.generics e.genericsTrailing ++ ' ' ::
    block level (e.variants.map (printVariant (level + 1))) e.variantsTrailing ++ ['\n']

/-- `Print for TypeAlias`, lib.rs:509-530. -/
def printAlias (level : Nat) (a : TypeAlias) : Text :=
  printComment level a.comment ++ indent level ++ "type ".toList ++ a.name.toList ++
    printGenerics a.generics a.genericsTrailing ++ " = ".toList ++ printType a.target ++ [';']

/-- `Print for Const`, lib.rs:1192-1210. -/
def printConst (std : Std) (level : Nat) (c : Const) : Text :=
  printComment level c.comment ++ indent level ++ "const ".toList ++ c.name.toList ++ ": ".toList ++ printType c.ty ++
    " = ".toList ++ printLiteral std c.value ++ [';']

/-- The segments of an import, separated by `::`. -/
def printSegments : List String → Text
  | [] => []
  | [s] => s.toList
  | s :: ss => s.toList ++ "::".toList ++ printSegments ss

/-- `Print for Import`, lib.rs:1292-1316. -/
def printImport (level : Nat) (i : Import) : Text :=
  indent level ++ "use ".toList ++ printSegments i.segments ++
    (match i.element with | none => [] | some e => "::".toList ++ e.toList) ++ [';']

mutual
/-- `Print for Definition`, lib.rs:208-219, and for `Module`, lib.rs:274-298. -/
def printDef (std : Std) (level : Nat) : Definition → Text
  | .module comment n ds =>
    printComment level comment ++ indent level ++ "mod ".toList ++ n.toList ++ " {\n".toList ++
      printDefs std (level + 1) ds ++ indent level ++ "}\n".toList
  | .struct s => printStruct std level s
  | .enum e => printEnum std level e
  | .typeAlias a => printAlias level a
  | .const c => printConst std level c
  | .import i => printImport level i
/-- The definitions of a module, lib.rs:288-293. -/
def printDefs (std : Std) (level : Nat) : List Definition → Text
  | [] => []
  | [d] => printDef std level d
  | d :: ds => printDef std level d ++ '\n' :: printDefs std level ds
end

/-- The definitions of a schema, lib.rs:183-185. -/
def printTop (std : Std) : List Definition → Text
  | [] => []
  | d :: ds => printDef std 0 d ++ '\n' :: printTop std ds

/-- `Display for Schema`, lib.rs:177-188. -/
def printSchema (std : Std) (s : Schema) : Text :=
  (if s.comment = [] then [] else printComment 0 s.comment ++ ['\n']) ++ printTop std s.definitions

/-- `format`, main.rs:58-79, for one file: the content of the file afterwards. -/
def fmtFile (std : Std) (buf : Text) : Text := match parseSchema std buf with
  | none => buf
  | some s => if buf = printSchema std s then buf else printSchema std s

end Mabo.Parse
