import Verif.Spec.Html
import Verif.Doc.Render
import Verif.Lsp.Hover
/-!
The documents that the pages of the documentation should be. What comes from the schema is inserted as `text` (or `exact`,
for the definition), so it is shown as it is and adds no elements. Comments are the documents that their Markdown stands
for, a parameter.

Taken from the model: the text of a definition (`docStruct` …, subject of C52 and C54), of a type (`docType`), of a
comment (`mergeComments`, its lines), of a size (`Lsp.printSize`), of numbers, and the addresses `upwards n`, which is
`../` n times.
-/
namespace Mabo.Spec.DocHtml
open Mabo.Spec.Html
open Mabo.Simplify
open Mabo.Parse (Text Std printNat)
open Mabo.Doc (upwards mergeComments docStruct docEnum docAlias docConst docType)

/-- The documents for Markdown: of comments, and of sizes with their indentation. -/
structure Meaning where
  block : Text → List Node
  sizes : Nat → Text → List Node

/-- An element with a class. -/
def cls (name cls : String) (kids : List Node) : Node := el name [("class", cls.toList)] kids

/-- An element without attributes. -/
def plain (name : String) (kids : List Node) : Node := el name [] kids

/-- The page around the content. -/
def page (path : List String) (title : String) (content : List Node) : List Node :=
  [.decl "DOCTYPE html".toList,
   el "html" [("lang", "en".toList)]
    [plain "head"
      [el "meta" [("charset", "utf-8".toList)] [],
       el "meta" [("name", "viewport".toList), ("content", "width=device-width, initial-scale=1".toList)] [],
       el "link" [("rel", "stylesheet".toList), ("href", upwards path.length ++ "assets/style.css".toList)] [],
       plain "title" (text (title.toList ++ " - Mabo".toList))],
     plain "body" [plain "nav" [], plain "main" content]]]

/-- The links to the modules around, from the outermost. -/
def trail (len : Nat) : Nat → List String → List Node
  | _, [] => []
  | i, p :: ps => el "a" [("href", upwards (len - i - 1) ++ "index.html".toList)] (text p.toList) :: say "::" ++ trail len (i + 1) ps

/-- The heading. -/
def heading (kind nameClass : String) (links : List Node) (name : String) : Node :=
  plain "h2" (say kind ++ links ++ [cls "span" nameClass (text name.toList)])

/-- The definition. -/
def definition (t : Text) : Node := cls "pre" "item-definition my-2" (exact t)

/-- The comment. -/
def comment (m : Meaning) (c : List String) : Node := cls "div" "markdown pl-6" (m.block (mergeComments c))

/-- A section. -/
def part (kids : List Node) : Node := cls "div" "section" kids

/-- The lines up to the first one that is blank. -/
def summary : List String → List String
  | [] => []
  | l :: ls => if ∃ c ∈ l.toList, ¬ (c.toNat ∈ [9, 10, 11, 12, 13, 0x20, 0x85, 0xA0, 0x1680, 0x2000, 0x2001, 0x2002, 0x2003,
      0x2004, 0x2005, 0x2006, 0x2007, 0x2008, 0x2009, 0x200A, 0x2028, 0x2029, 0x202F, 0x205F, 0x3000]) then l :: summary ls else []

/-- A row of a table: a link and the summary. -/
def row (m : Meaning) (nameClass : String) (href : Text) (name : String) (c : List String) : Node :=
  plain "tr"
    [cls "td" "pr-8" [el "a" [("class", ("text-lg " ++ nameClass).toList), ("href", href)] (text name.toList)],
     plain "td" (m.block (mergeComments (summary c)))]

/-- The row if the definition is a module. -/
def moduleRow (m : Meaning) : Definition → List Node
  | .module c n _ => [row m "name-module" (n.toList ++ "/index.html".toList) n c]
  | _ => []
/-- The row if the definition is a struct. -/
def structRow (m : Meaning) : Definition → List Node
  | .struct s => [row m "name-struct" ("struct.".toList ++ s.name.toList ++ ".html".toList) s.name s.comment]
  | _ => []
/-- The row if the definition is an enum. -/
def enumRow (m : Meaning) : Definition → List Node
  | .enum e => [row m "name-enum" ("enum.".toList ++ e.name.toList ++ ".html".toList) e.name e.comment]
  | _ => []
/-- The row if the definition is an alias. -/
def aliasRow (m : Meaning) : Definition → List Node
  | .typeAlias a => [row m "name-alias" ("alias.".toList ++ a.name.toList ++ ".html".toList) a.name a.comment]
  | _ => []
/-- The row if the definition is a constant. -/
def constRow (m : Meaning) : Definition → List Node
  | .const c => [row m "name-const" ("constant.".toList ++ c.name.toList ++ ".html".toList) c.name c.comment]
  | _ => []

/-- A table. -/
def table (title : String) (rows : List Node) : Node := part [plain "h3" (say title), plain "table" rows]

/-- The tables of what is defined. -/
def tables (m : Meaning) (ds : List Definition) : List Node :=
  [table "Modules" (ds.flatMap (moduleRow m)), table "Structs" (ds.flatMap (structRow m)),
   table "Enums" (ds.flatMap (enumRow m)), table "Aliases" (ds.flatMap (aliasRow m)),
   table "Constants" (ds.flatMap (constRow m))]

/-- The page of a schema. -/
def schemaPage (m : Meaning) (path c : List String) (name : String) (ds : List Definition) : List Node :=
  page path name (part [plain "h2" (say "Schema " ++ text name.toList), comment m c] :: tables m ds)

/-- The page of a module; the path ends with the module. -/
def modulePage (m : Meaning) (path c : List String) (name : String) (ds : List Definition) : List Node :=
  page path name
    (part [heading "Module" "name-module" (trail path.length 0 path.dropLast) name, comment m c] :: tables m ds)

/-- The page of an alias. -/
def aliasPage (m : Meaning) (path : List String) (a : TypeAlias) : List Node :=
  page path a.name
    [part [heading "Alias" "name-alias" (trail path.length 0 path) a.name, definition (docAlias a), comment m a.comment]]

/-- The page of a constant. -/
def constPage (std : Std) (m : Meaning) (path : List String) (c : Const) : List Node :=
  page path c.name
    [part [heading "Constant" "name-const" (trail path.length 0 path) c.name, definition (docConst std c), comment m c.comment]]

/-- Name, type and id of a field. -/
def fieldCode (f : Field) : Node :=
  plain "code"
    ([cls "span" "field-name" (text f.name.toList)] ++ say ":" ++
     [cls "span" "field-type" (text (docType f.ty)), cls "span" "field-id" (say "@" ++ text (printNat f.id.toNat))])

/-- The size of a field; nothing if it is not known. -/
def fieldSize (m : Meaning) (indentation : Nat) (t : Ty) : List Node :=
  match Lsp.sizeTree t with
  | some s =>
    [cls "div" "pl-4"
      [cls "h4" "my-2" (say "Metadata"),
       cls "div" "text-sm"
        [plain "p" (say "The size range is:"),
         cls "div" "markdown markdown-sm markdown-p:mb-1 markdown-ul:m-0 markdown-ul:pl-4 markdown-li:m-0 markdown-li:pl-0"
          (m.sizes indentation (Lsp.printSize 0 s).toList)]]]
  | none => []

/-- What is shown for a field. -/
def fieldParts (m : Meaning) (indentation : Nat) (f : Field) : List Node :=
  fieldCode f :: cls "div" "markdown pl-4" (m.block (mergeComments f.comment)) :: fieldSize m indentation f.ty

/-- The page of a struct. -/
def structPage (m : Meaning) (path : List String) (s : Struct) (next : Option (BitVec 32)) : List Node :=
  page path s.name
    [part [heading "Struct" "name-struct" (trail path.length 0 path) s.name, definition (docStruct s), comment m s.comment],
     part
      [plain "h3" (say "Metadata"),
       cls "div" "pl-6 mt-2"
        (match next with
         | some n => [plain "p" (say "The next free ID is " ++ [cls "code" "font-bold" (text (printNat n.toNat))])]
         | none => [])],
     part
      [plain "h3" (say "Fields"), plain "ul" (s.fields.fields.map fun f => cls "li" "field-definition" (fieldParts m 10 f))]]

/-- What is shown for a variant. -/
def variantParts (m : Meaning) (v : Variant) : List Node :=
  [cls "code" "name-variant text-lg"
    [cls "span" "variant-name" (text v.name.toList), cls "span" "variant-id" (say "@" ++ text (printNat v.id.toNat))],
   cls "div" "markdown pl-6" (m.block (mergeComments v.comment))] ++
  match v.fields.kind with
  | .unit => []
  | _ => [cls "div" "pl-6" [plain "h4" (say "Fields"), plain "ul" (v.fields.fields.map fun f => plain "li" (fieldParts m 16 f))]]

/-- The page of an enum. -/
def enumPage (m : Meaning) (path : List String) (e : Enum) : List Node :=
  page path e.name
    [part [heading "Enum" "name-enum" (trail path.length 0 path) e.name, definition (docEnum e), comment m e.comment],
     part [plain "h3" (say "Variants"), plain "ul" (e.variants.map fun v => cls "li" "field-definition" (variantParts m v))]]

mutual
/-- The documents for a definition and what is in it, in the order they are written; the one of a struct is missing if
`next` has no answer for its fields. -/
def documents (std : Std) (next : Fields → Option (Option (BitVec 32))) (m : Meaning) (path : List String) :
    Definition → List (Option (List Node))
  | .module c n ds => some (modulePage m (path ++ [n]) c n ds) :: allDocuments std next m (path ++ [n]) ds
  | .struct s => [(next s.fields).map (structPage m path s)]
  | .enum e => [some (enumPage m path e)]
  | .typeAlias a => [some (aliasPage m path a)]
  | .const c => [some (constPage std m path c)]
  | .import _ _ => []
/-- For all definitions. -/
def allDocuments (std : Std) (next : Fields → Option (Option (BitVec 32))) (m : Meaning) (path : List String) :
    List Definition → List (Option (List Node))
  | [] => []
  | d :: ds => documents std next m path d ++ allDocuments std next m path ds
end

mutual
/-- The elements of a document in their order: names and how deep they are. -/
def tags (depth : Nat) : Node → List (Text × Nat)
  | .decl _ => []
  | .chr _ => []
  | .el n _ kids => (n, depth) :: allTags (depth + 1) kids
/-- For all nodes. -/
def allTags (depth : Nat) : List Node → List (Text × Nat)
  | [] => []
  | x :: xs => tags depth x ++ allTags depth xs
end

mutual
/-- The text inside of the elements with this name. -/
def inside (name : Text) (within : Bool) : Node → Text
  | .decl _ => []
  | .chr c => if within then [c] else []
  | .el n _ kids => allInside name (within || n == name) kids
/-- For all nodes. -/
def allInside (name : Text) (within : Bool) : List Node → Text
  | [] => []
  | x :: xs => inside name within x ++ allInside name within xs
end

end Mabo.Spec.DocHtml
