import Verif.Parser.Schema
/-!
The parsers of `crates/mabo-parser` once more, now with the source spans that they record (`with_span`, `span`), and the
syntax tree that holds them (`crates/mabo-parser/src/lib.rs`, `token.rs`).

A location of winnow's `LocatingSlice` is the distance between the start of the source and the remaining input; here it
is the remaining input itself, and `offset` computes the number of bytes. The tree without its spans is the one that
`Parser/Schema.lean` computes (`Parser/SpansLemmas.lean`). Attributes have no spans that anything uses; the schema's own
comment keeps only its lines.
-/
namespace Mabo.Spanned
open Mabo.Parse
open Mabo.Schema (Prim)

/-- `Span`, lib.rs:70-75: the remaining input at both ends. -/
structure Span where
  start : Text
  stop : Text
deriving DecidableEq, Repr

/-- `Location::current_token_start` of `LocatingSlice`: bytes between the start of the source and the remaining input. -/
def offset (source rest : Text) : Nat := (source.map Char.utf8Size).sum - (rest.map Char.utf8Size).sum

/-- winnow's `with_span`. -/
def withSpan {α : Type} (p : P α) : P (α × Span) := fun s => match p s with
  | .ok a r => .ok (a, ⟨s, r⟩) r
  | .back => .back
  | .cut => .cut

/-- winnow's `span`, as `parser()` of the tokens uses it, token.rs:56-63 and 119-126. -/
def span {α : Type} (p : P α) : P Span := do let (_, sp) ← withSpan p; pure sp

/-- `Name`, lib.rs:1123-1128. -/
structure Name where
  value : String
  span : Span

/-- The end of every name parser: `.take().with_span().map(Into::into)`. -/
def named (p : P String) : P Name := do let (value, span) ← withSpan p; pure { value, span }

/-- `Punctuated`, punctuated.rs:21-24: the values, the separators between them, and the one behind the last value. -/
structure Punctuated (α : Type) where
  values : List α
  commas : List Span
  last : Option Span

/-- Loop of `punctuate`, parser.rs:219-270. `acc` holds the values with their separators in reverse. -/
def punctuateAux {α : Type} (f : P (α × Span)) (g : P (α × Option Span)) : Nat → List (α × Span) →
    Option (Text × List (α × Span)) → Text → Res (Punctuated α)
  | 0, _, _, _ => .cut
  | n + 1, acc, prev, s =>
    match f s with
    | .ok a r => if r.length = s.length then .cut else punctuateAux f g n (a :: acc) (some (s, acc)) r
    | .cut => .cut
    | .back =>
      match g s with
      | .ok (a, t) r => .ok ⟨(a :: acc.map (·.1)).reverse, (acc.map (·.2)).reverse, t⟩ r
      | .cut => .cut
      | .back =>
        match prev with
        | none => .back
        | some (s', acc') =>
          match g s' with
          | .ok (a, t) r => .ok ⟨(a :: acc'.map (·.1)).reverse, (acc'.map (·.2)).reverse, t⟩ r
          | .back => .back
          | .cut => .cut

/-- `punctuate`, parser.rs:219-270. -/
def punctuate {α : Type} (f : P (α × Span)) (g : P (α × Option Span)) : P (Punctuated α) :=
  fun s => punctuateAux f g (s.length + 1) [] none s

/-- `punctuate((p, ws(Comma)), (p, opt(ws(Comma))))`. -/
def commaList {α : Type} (p : P α) : P (Punctuated α) :=
  punctuate (do let a ← p; let c ← ws (span (chr ',')); pure (a, c))
    (do let a ← p; let c ← opt (ws (span (chr ','))); pure (a, c))

/-- A value between delimiters. -/
structure Delimited (α : Type) where
  opening : Span
  inner : α
  closing : Span

/-- `surround`, parser.rs:272-287. -/
def surround {α : Type} (o c : Char) (p : P α) : P (Delimited α) := do
  let opening ← span (chr o)
  cutErr (do let inner ← p; let closing ← ws (span (chr c)); pure { opening, inner, closing })

/-! ### Types -/

/-- The types with one type argument. -/
inductive Single where
  | vec | hashSet | option | nonZero

/-- `Type` and `DataType`, lib.rs:840-990 and 1027-1036. `single` stands for `Vec`, `HashSet`, `Option` and `NonZero`. The
span of the whole type is only used for the leaves. -/
inductive Ty where
  | prim (p : Prim) (span : Span)
  | single (k : Single) (span opening : Span) (t : Ty) (closing : Span)
  | hashMap (span opening : Span) (k : Ty) (comma : Span) (v : Ty) (closing : Span)
  | tuple (opening : Span) (ts : List Ty) (commas : List Span) (last : Option Span) (closing : Span)
  | array (opening : Span) (t : Ty) (semicolon : Span) (size : BitVec 32) (closing : Span)
  | external (path : List (Name × Span)) (name : Name) (angle : Option (Span × Span)) (generics : List Ty)
      (commas : List Span) (last : Option Span)

/-- `parse_basic`, types.rs:69-96, inside `with_span`, types.rs:59. -/
def parseBasic : P Ty := do
  let (p, span) ← withSpan (alt (do
    let w ← takeWhile 2 isBasicChar
    match basicOf (String.ofList w) with
    | some p => pure p
    | none => fail)
    (alt (do lit "box<string>"; pure .boxString) (do lit "box<bytes>"; pure .boxBytes)))
  pure (.prim p span)

/-- `parse_single`, types.rs:99-112. -/
def parseSingle (rec : P Ty) (k : Single) (span : Span) : P Ty := do
  let d ← cutErr (surround '<' '>' rec)
  pure (.single k span d.opening d.inner d.closing)

/-- `parse_pair`, types.rs:114-130. -/
def parsePair (rec : P Ty) (sp1 : Span) : P Ty := do
  let d ← cutErr (surround '<' '>' (do
    let k ← rec
    let c ← sp (span (chr ','))
    let v ← sp rec
    pure (k, c, v)))
  pure (.hashMap sp1 d.opening d.inner.1 d.inner.2.1 d.inner.2.2 d.closing)

/-- `parse_generic`, types.rs:98-165. -/
def parseGeneric (rec : P Ty) : P Ty := do
  let (w, span) ← withSpan (takeWhile 3 isGenericChar)
  let w := String.ofList w
  if w = "vec" then parseSingle rec .vec span
  else if w = "hash_map" then parsePair rec span
  else if w = "hash_set" then parseSingle rec .hashSet span
  else if w = "option" then parseSingle rec .option span
  else if w = "non_zero" then parseSingle rec .nonZero span
  else fail

/-- `parse_tuple`, types.rs:167-177. -/
def parseTuple (rec : P Ty) : P Ty := do
  let d ← surround '(' ')' (commaList (ws rec))
  pure (.tuple d.opening d.inner.values d.inner.commas d.inner.last d.closing)

/-- `parse_array`, types.rs:179-193. -/
def parseArray (rec : P Ty) : P Ty := do
  let d ← surround '[' ']' (do
    let t ← ws rec
    let c ← ws (span (chr ';'))
    let n ← ws (decUint (2 ^ 32))
    pure (t, c, n))
  pure (.array d.opening d.inner.1 d.inner.2.1 (BitVec.ofNat 32 d.inner.2.2) d.closing)

/-- `parse_external`, types.rs:195-221. -/
def parseExternal (rec : P Ty) : P Ty := do
  let path ← opt (many1 (do let s ← named parseSegment; let c ← span (lit "::"); pure (s, c)))
  let name ← named parseExternalName
  let generics ← opt (surround '<' '>' (commaList (ws rec)))
  match generics with
  | some d => pure (.external (path.getD []) name (some (d.opening, d.closing)) d.inner.values d.inner.commas d.inner.last)
  | none => pure (.external (path.getD []) name none [] [] none)

/-- `types::parse`, types.rs:49-67, with `rec` for the recursive calls. -/
def typeBody (rec : P Ty) : P Ty :=
  alt parseBasic <| alt (parseGeneric rec) <| alt (parseTuple rec) <| alt (parseArray rec) (parseExternal rec)

/-- `typeBody` iterated to a depth. -/
def typeDepth : Nat → P Ty
  | 0 => fun _ => .cut
  | n + 1 => typeBody (typeDepth n)

/-- `types::parse`, types.rs:49-67. -/
def parseType : P Ty := fun s => typeDepth (s.length + 1) s

/-! ### Comments, ids, fields, generics -/

/-- `Id`, lib.rs:1083-1090. -/
structure Id where
  value : BitVec 32
  span : Span

/-- `ids::parse`, parser.rs:122-134. -/
def parseId : P Id := do let (value, span) ← withSpan Parse.parseId; pure { value, span }

/-- `opt(preceded(space0, ids::parse))`. -/
def optId : P (Option Id) := opt (sp parseId)

/-- One line of `comments::parse`, parser.rs:183-192; `CommentLine`, lib.rs:719-725. -/
def commentLine : P Name := do
  let _ ← space0
  let (v, span) ← withSpan (do lit "///"; let _ ← space0; takeWhile 0 (· != '\n'))
  chr '\n'
  pure { value := String.ofList v, span }

/-- `comments::parse`, parser.rs:179-203. -/
def parseComments : P (List Name) := many commentLine

/-- `NamedField`, lib.rs:594-607. -/
structure NamedField where
  comment : List Name
  name : Name
  colon : Span
  ty : Ty
  id : Option Id
  span : Span

/-- `UnnamedField`, lib.rs:654-661. -/
structure UnnamedField where
  ty : Ty
  id : Option Id
  span : Span

/-- `Fields`, lib.rs:540-562. -/
inductive Fields where
  | named (d : Delimited (Punctuated NamedField))
  | unnamed (d : Delimited (Punctuated UnnamedField))
  | unit

/-- `parse_named_field`, fields.rs:129-149. -/
def parseNamedField : P NamedField := do
  let comment ← ws parseComments
  let ((name, colon, ty, id), span) ← withSpan (do
    let name ← sp (named parseSegment)
    let colon ← sp (span (chr ':'))
    let ty ← sp parseType
    let id ← optId
    pure (name, colon, ty, id))
  pure { comment, name, colon, ty, id, span }

/-- `parse_unnamed_field`, fields.rs:115-127. -/
def parseUnnamedField : P UnnamedField := do
  let ((ty, id), span) ← withSpan (do
    let ty ← ws parseType
    let id ← optId
    pure (ty, id))
  pure { ty, id, span }

/-- `fields::parse`, fields.rs:73-113. -/
def parseFields : P Fields := do
  let c ← peekAny
  if c = '{' then do
    let d ← surround '{' '}' (commaList parseNamedField)
    pure (.named d)
  else if c = '(' then do
    let d ← surround '(' ')' (commaList parseUnnamedField)
    pure (.unnamed d)
  else pure .unit

/-- `generics::parse`, generics.rs:45-58; `Generics`, lib.rs:1064-1069. -/
def parseGenerics : P (Option (Delimited (Punctuated Name))) := opt (surround '<' '>' (commaList (ws (named parseCamel))))

/-! ### Definitions -/

/-- `Struct`, lib.rs:321-334. -/
structure Struct where
  comment : List Name := []
  attributes : List Ast.Attribute := []
  keyword : Span
  name : Name
  generics : Option (Delimited (Punctuated Name))
  fields : Fields

/-- `structs::parse`, structs.rs:65-95. -/
def parseStruct : P Struct := do
  let keyword ← span (lit "struct")
  let _ ← space1
  cutErr (do
    let name ← named parseCamel
    let generics ← parseGenerics
    let fields ← sp parseFields
    pure { keyword, name, generics, fields })

/-- `Variant`, lib.rs:435-446. -/
structure Variant where
  comment : List Name
  name : Name
  fields : Fields
  id : Option Id
  span : Span

/-- `parse_variant`, enums.rs:137-155. -/
def parseVariant : P Variant := do
  let comment ← ws parseComments
  let ((name, fields, id), span) ← withSpan (do
    let name ← sp (named parseCamel)
    let fields ← sp parseFields
    let id ← optId
    pure (name, fields, id))
  pure { comment, name, fields, id, span }

/-- `Enum`, lib.rs:383-398. -/
structure Enum where
  comment : List Name := []
  attributes : List Ast.Attribute := []
  keyword : Span
  name : Name
  generics : Option (Delimited (Punctuated Name))
  variants : Delimited (Punctuated Variant)

/-- `enums::parse`, enums.rs:87-112. -/
def parseEnum : P Enum := do
  let keyword ← span (lit "enum")
  let _ ← space1
  cutErr (do
    let name ← named parseCamel
    let generics ← parseGenerics
    let variants ← sp (surround '{' '}' (commaList parseVariant))
    pure { keyword, name, generics, variants })

/-- `TypeAlias`, lib.rs:492-507. -/
structure TypeAlias where
  comment : List Name := []
  keyword : Span
  name : Name
  generics : Option (Delimited (Punctuated Name))
  equal : Span
  target : Ty
  semicolon : Span

/-- `aliases::parse`, aliases.rs:65-94. -/
def parseAlias : P TypeAlias := do
  let keyword ← span (lit "type")
  let _ ← space1
  cutErr (do
    let name ← named parseCamel
    let generics ← parseGenerics
    let equal ← sp (span (chr '='))
    let target ← sp parseType
    let semicolon ← sp (span (chr ';'))
    pure { keyword, name, generics, equal, target, semicolon })

/-- `Const`, lib.rs:1173-1190; `Literal`, lib.rs:1221-1226. -/
structure Const where
  comment : List Name := []
  keyword : Span
  name : Name
  colon : Span
  ty : Ty
  equal : Span
  value : Ast.Literal
  valueSpan : Span
  semicolon : Span

/-- `consts::parse`, consts.rs:78-128. -/
def parseConst (std : Std) : P Const := do
  let keyword ← span (lit "const")
  let _ ← space1
  cutErr (do
    let name ← named (Parse.name isUpper isConstChar)
    let colon ← span (chr ':')
    let ty ← sp parseType
    let equal ← sp (span (chr '='))
    let (value, valueSpan) ← sp (withSpan (parseLiteral std))
    let semicolon ← span (chr ';')
    pure { keyword, name, colon, ty, equal, value, valueSpan, semicolon })

/-- `Import`, lib.rs:1278-1290. -/
structure Import where
  keyword : Span
  segments : List Name
  element : Option (Span × Name)
  semicolon : Span

/-- `imports::parse`, imports.rs:65-102. -/
def parseImport : P Import := do
  let keyword ← span (lit "use")
  let _ ← space1
  cutErr (do
    let segments ← separated1 (named parseSegment) (span (lit "::"))
    let element ← opt (do
      let colons ← span (lit "::")
      let name ← alt (named parseCamel) (named parseCamel)
      pure (colons, name))
    let semicolon ← span (chr ';')
    pure { keyword, segments, element, semicolon })

/-- `Definition`, lib.rs:192-206; `module` holds the fields of `Module`, lib.rs:260-272. -/
inductive Definition where
  | module (comment : List Name) (keyword : Span) (name : Name) (opening : Span) (definitions : List Definition)
      (closing : Span)
  | struct (s : Struct)
  | enum (e : Enum)
  | typeAlias (a : TypeAlias)
  | const (c : Const)
  | import (i : Import)

/-- `modules::parse`, modules.rs:62-105, with `rec` for `parse_definition`. -/
def parseModule (rec : P Definition) : P Definition := do
  let keyword ← span (lit "mod")
  let _ ← space1
  cutErr (do
    let name ← named parseSegment
    let d ← sp (surround '{' '}' (many (ws rec)))
    pure (.module [] keyword name d.opening d.inner d.closing))

/-- `with_comment`, lib.rs:226-236. -/
def withComment (d : Definition) (comment : List Name) : Definition := match d with
  | .module _ k n o ds c => .module comment k n o ds c
  | .struct s => .struct { s with comment }
  | .enum e => .enum { e with comment }
  | .typeAlias a => .typeAlias { a with comment }
  | .const c => .const { c with comment }
  | .import i => .import i

/-- `with_attributes`, lib.rs:238-249. -/
def withAttributes (d : Definition) (attributes : List Ast.Attribute) : Definition := match d with
  | .struct s => .struct { s with attributes }
  | .enum e => .enum { e with attributes }
  | d => d

/-- The dispatch of `parse_definition`, parser.rs:83-92. -/
def defKind (std : Std) (rec : P Definition) : P Definition := do
  let c ← peekAny
  if c = 'm' then parseModule rec
  else if c = 's' then do let s ← parseStruct; pure (.struct s)
  else if c = 'e' then do let e ← parseEnum; pure (.enum e)
  else if c = 'c' then do let k ← parseConst std; pure (.const k)
  else if c = 't' then do let a ← parseAlias; pure (.typeAlias a)
  else if c = 'u' then do let i ← parseImport; pure (.import i)
  else fail

/-- `parse_definition`, parser.rs:78-98, with `rec` for the definitions of a module. -/
def defBody (std : Std) (rec : P Definition) : P Definition := do
  let comment ← ws parseComments
  let attributes ← ws (parseAttributes std)
  let d ← sp (defKind std rec)
  pure (withAttributes (withComment d comment) attributes)

/-- `defBody` iterated to a depth. -/
def defDepth (std : Std) : Nat → P Definition
  | 0 => fun _ => .cut
  | n + 1 => defBody std (defDepth std n)

/-- `parse_definition`, parser.rs:78-98. -/
def parseDefinition (std : Std) : P Definition := fun s => defDepth std (s.length + 1) s

/-- `Schema`, lib.rs:135-145 (path dropped; the source text is kept outside). -/
structure Schema where
  comment : List Name
  definitions : List Definition

/-- `parse_schema`, parser.rs:51-76. -/
def schemaParser (std : Std) : P Schema := do
  let comment ← opt (do let c ← ws parseComments; chr '\n'; pure c)
  let definitions ← many (parseDefinition std)
  let _ ← multi0
  pure { comment := comment.getD [], definitions }

/-- `Schema::parse`, lib.rs:160-174. -/
def parseSchema (std : Std) (text : Text) : Option Schema := match schemaParser std text with
  | .ok s [] => some s
  | _ => none

end Mabo.Spanned
