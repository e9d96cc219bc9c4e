import Verif.Doc.Render
import Verif.Lsp.Hover
/-!
Model of the HTML that `mabo doc` writes: the templates in `crates/mabo-doc/templates/` character by character, with what
they insert (`Doc/Render.lean` has the texts and which files there are).

Parameters (`Markdown`): the conversion of Markdown by `comrak`, followed by `trim` (and `indent` for the sizes of fields).
The escaping of inserted text is the one of askama for files named `*.html`. Sizes are natural numbers as in
`Lsp/Hover.lean`.
-/
namespace Mabo.Doc
open Mabo.Simplify
open Mabo.Parse (Text Std printNat)

/-- Askama's escaper for HTML. -/
def escapeChar (c : Char) : Text :=
  if c = '<' then "&#60;".toList
  else if c = '>' then "&#62;".toList
  else if c = '&' then "&#38;".toList
  else if c = '"' then "&#34;".toList
  else if c = '\'' then "&#39;".toList
  else [c]

/-- All characters: `{{ .. }}` in the templates. Numbers need no escaping and are written as they are. -/
def escape : Text → Text
  | [] => []
  | c :: cs => escapeChar c ++ escape cs

/-- The filters of comments, `markdown|trim`, and of sizes, `markdown|trim|indent(n)`, templates.rs:11-46; `safe` leaves
the text as it is. -/
structure Markdown where
  block : Text → Text
  sizes : Nat → Text → Text

/-- `char::is_whitespace`. -/
def isWhite (c : Char) : Bool :=
  (9 ≤ c.toNat && c.toNat ≤ 13) || c.toNat == 0x20 || c.toNat == 0x85 || c.toNat == 0xA0 || c.toNat == 0x1680 ||
  (0x2000 ≤ c.toNat && c.toNat ≤ 0x200A) || c.toNat == 0x2028 || c.toNat == 0x2029 || c.toNat == 0x202F ||
  c.toNat == 0x205F || c.toNat == 0x3000

/-- `first_comment`, templates.rs:238-246. -/
def firstComment (ls : List String) : Text := mergeComments (ls.takeWhile fun l => !l.toList.all isWhite)

/-- Text of a template. -/
def lit (s : String) : Text := s.toList

/-- The kinds of definitions with a template. -/
inductive Kind where
  | alias
  | const
  | enum
  | module
  | struct
  deriving DecidableEq

/-- The kind in the heading, line 8 of the templates in `templates/detail/`. -/
def Kind.title : Kind → String
  | .alias => "Alias"
  | .const => "Constant"
  | .enum => "Enum"
  | .module => "Module"
  | .struct => "Struct"

/-- The class of names, line 12 of the templates in `templates/detail/`. -/
def Kind.cls : Kind → String
  | .alias => "name-alias"
  | .const => "name-const"
  | .enum => "name-enum"
  | .module => "name-module"
  | .struct => "name-struct"

/-- The address in a row of a table before the name, e.g. index.html:39. -/
def Kind.before : Kind → String
  | .alias => "alias."
  | .const => "constant."
  | .enum => "enum."
  | .module => ""
  | .struct => "struct."

/-- The address in a row of a table behind the name and the end of the tag, e.g. index.html:20 and 39. -/
def Kind.after : Kind → String
  | .module => "/index.html\">"
  | _ => ".html\">"

/-- base.html. -/
def baseHtml (path : List String) (title : String) (content : Text) : Text :=
  lit "<!DOCTYPE html>\n<html lang=\"en\">\n  <head>\n    <meta charset=\"utf-8\" />\n    <meta name=\"viewport\" content=\"width=device-width, initial-scale=1\" />\n\n    \n    <link rel=\"stylesheet\" href=\"" ++
  escape (upwards path.length) ++ lit "assets/style.css\" />" ++ lit "\n\n    <title>" ++ escape title.toList ++
  lit " - Mabo</title>\n  </head>\n  <body>\n    <nav>\n    </nav>\n    <main>" ++ content ++
  lit "\n    </main>\n  </body>\n</html>"

/-- The links of headings, lines 9-11 of the templates in `templates/detail/`: `len` is the length of the whole path, `i` the
position of the head of the list. -/
def trailHtml (len i : Nat) : List String → Text
  | [] => []
  | p :: ps =>
    lit "<a href=\"" ++ escape (upwards (len - i - 1)) ++ lit "index.html\">" ++ escape p.toList ++ lit "</a>::" ++
      trailHtml len (i + 1) ps

/-- The heading, lines 6-13 of the templates in `templates/detail/`. -/
def headingHtml (k : Kind) (trail : Text) (name : String) : Text :=
  (lit "\n<div class=\"section\">\n  <h2>\n    " ++ lit k.title ++ lit "\n    ") ++ trail ++
  (lit "<span class=\"" ++ lit k.cls ++ lit "\">") ++ escape name.toList ++ lit "</span>\n  </h2>"

/-- The text of the definition, line 14 of alias.html, const.html, enum.html and struct.html. -/
def definitionHtml (t : Text) : Text := lit "\n  <pre class=\"item-definition my-2\">" ++ escape t ++ lit "</pre>"

/-- The comment, lines 15-18 of alias.html, const.html, enum.html and struct.html, 14-17 of module.html, 8-11 of
index.html. -/
def commentHtml (md : Markdown) (comment : List String) : Text :=
  lit "\n  <div class=\"markdown pl-6\">\n    " ++ md.block (mergeComments comment) ++ lit "\n  </div>\n</div>"

/-- The row of a definition in a table: index.html:18-25, 37-44, 56-63, 75-82, 94-101, the same in module.html. -/
def rowHtml (md : Markdown) (k : Kind) (name : String) (comment : List String) : Text :=
  (lit "\n    <tr>\n      <td class=\"pr-8\">\n        <a class=\"text-lg " ++ lit k.cls ++ lit "\" href=\"" ++ lit k.before) ++
  escape name.toList ++ lit k.after ++ escape name.toList ++
  lit "</a>\n      </td>\n      <td>\n        " ++ md.block (firstComment comment) ++ lit "\n      </td>\n    </tr>"

/-- The rows for modules, index.html:15-28 and module.html:21-34. -/
def moduleRows (md : Markdown) : List Definition → Text
  | [] => []
  | .module c n _ :: ds => rowHtml md .module n c ++ moduleRows md ds
  | _ :: ds => moduleRows md ds

/-- The rows for structs, index.html:34-47 and module.html:40-53. -/
def structRows (md : Markdown) : List Definition → Text
  | [] => []
  | .struct s :: ds => rowHtml md .struct s.name s.comment ++ structRows md ds
  | _ :: ds => structRows md ds

/-- The rows for enums, index.html:53-66 and module.html:59-72. -/
def enumRows (md : Markdown) : List Definition → Text
  | [] => []
  | .enum e :: ds => rowHtml md .enum e.name e.comment ++ enumRows md ds
  | _ :: ds => enumRows md ds

/-- The rows for aliases, index.html:72-85 and module.html:78-91. -/
def aliasRows (md : Markdown) : List Definition → Text
  | [] => []
  | .typeAlias a :: ds => rowHtml md .alias a.name a.comment ++ aliasRows md ds
  | _ :: ds => aliasRows md ds

/-- The rows for constants, index.html:91-104 and module.html:97-110. -/
def constRows (md : Markdown) : List Definition → Text
  | [] => []
  | .const c :: ds => rowHtml md .const c.name c.comment ++ constRows md ds
  | _ :: ds => constRows md ds

/-- A table, e.g. index.html:12-30. -/
def tableHtml (title : String) (rows : Text) : Text :=
  (lit "\n<div class=\"section\">\n  <h3>" ++ lit title ++ lit "</h3>\n  <table>") ++ rows ++ lit "\n  </table>\n</div>"

/-- The tables, index.html:12-106 and module.html:18-112. -/
def tablesHtml (md : Markdown) (ds : List Definition) : Text :=
  tableHtml "Modules" (moduleRows md ds) ++ tableHtml "Structs" (structRows md ds) ++ tableHtml "Enums" (enumRows md ds) ++
  tableHtml "Aliases" (aliasRows md ds) ++ tableHtml "Constants" (constRows md ds)

/-- index.html. -/
def indexHtml (md : Markdown) (path : List String) (comment : List String) (name : String) (ds : List Definition) : Text :=
  baseHtml path name (lit "\n<div class=\"section\">\n  <h2>Schema " ++ escape name.toList ++ lit "</h2>" ++
    commentHtml md comment ++ tablesHtml md ds)

/-- module.html. -/
def moduleHtml (md : Markdown) (path : List String) (comment : List String) (name : String) (ds : List Definition) : Text :=
  baseHtml path name (headingHtml .module (trailHtml path.length 0 (path.take (path.length - 1))) name ++
    commentHtml md comment ++ tablesHtml md ds)

/-- alias.html. -/
def aliasHtml (md : Markdown) (path : List String) (a : TypeAlias) : Text :=
  baseHtml path a.name (headingHtml .alias (trailHtml path.length 0 path) a.name ++ definitionHtml (docAlias a) ++
    commentHtml md a.comment ++ lit "\n")

/-- const.html. -/
def constHtml (std : Std) (md : Markdown) (path : List String) (c : Const) : Text :=
  baseHtml path c.name (headingHtml .const (trailHtml path.length 0 path) c.name ++ definitionHtml (docConst std c) ++
    commentHtml md c.comment ++ lit "\n")

/-- `render_wire_size` of `wire_size`, templates.rs:214-218. -/
def sizeText (t : Ty) : Option Text := (Lsp.sizeTree t).map fun s => (Lsp.printSize 0 s).toList

/-- The size of the type of a field, struct.html:42-55. -/
def structSizeHtml (md : Markdown) : Option Text → Text
  | some t => lit "\n      <div class=\"pl-4\">\n        <h4 class=\"my-2\">Metadata</h4>\n        <div class=\"text-sm\">\n          <p>The size range is:</p>\n          <div\n            class=\"markdown markdown-sm markdown-p:mb-1 markdown-ul:m-0 markdown-ul:pl-4 markdown-li:m-0 markdown-li:pl-0\">\n            " ++
      md.sizes 10 t ++ lit "\n          </div>\n        </div>\n      </div>"
  | none => []

/-- A field, struct.html:33-56. -/
def structFieldHtml (md : Markdown) (f : Field) : Text :=
  lit "\n    <li class=\"field-definition\">\n      <code>\n        <span class=\"field-name\">" ++ escape f.name.toList ++
  lit "</span>:\n        <span class=\"field-type\">" ++ escape (docType f.ty) ++
  lit "</span>\n        <span class=\"field-id\">@" ++ escape (printNat f.id.toNat) ++
  lit "</span>\n      </code>\n      <div class=\"markdown pl-4\">\n        " ++ md.block (mergeComments f.comment) ++
  lit "\n      </div>" ++ structSizeHtml md (sizeText f.ty) ++ lit "\n    </li>"

/-- The loop, struct.html:32-57. -/
def structFieldsHtml (md : Markdown) : List Field → Text
  | [] => []
  | f :: fs => structFieldHtml md f ++ structFieldsHtml md fs

/-- The next free id, struct.html:22-26. -/
def nextIdHtml : Option (BitVec 32) → Text
  | some n => lit "\n    <p>The next free ID is <code class=\"font-bold\">" ++ escape (printNat n.toNat) ++ lit "</code></p>"
  | none => []

/-- struct.html; `none` when `next_field_id` panics. -/
def structHtml (md : Markdown) (checked : Bool) (path : List String) (s : Struct) : Option Text :=
  (Meta.nextFieldId checked s.fields).map fun next =>
    baseHtml path s.name (headingHtml .struct (trailHtml path.length 0 path) s.name ++ definitionHtml (docStruct s) ++
      commentHtml md s.comment ++
      lit "\n<div class=\"section\">\n  <h3>Metadata</h3>\n  <div class=\"pl-6 mt-2\">" ++ nextIdHtml next ++
      lit "\n  </div>\n</div>\n<div class=\"section\">\n  <h3>Fields</h3>\n  <ul>" ++ structFieldsHtml md s.fields.fields ++
      lit "\n  </ul>\n</div>\n")

/-- The size of the type of a field, enum.html:46-59. -/
def enumSizeHtml (md : Markdown) : Option Text → Text
  | some t => lit "\n            <div class=\"pl-4\">\n              <h4 class=\"my-2\">Metadata</h4>\n              <div class=\"text-sm\">\n                <p>The size range is:</p>\n                <div\n                  class=\"markdown markdown-sm markdown-p:mb-1 markdown-ul:m-0 markdown-ul:pl-4 markdown-li:m-0 markdown-li:pl-0\">\n                  " ++
      md.sizes 16 t ++ lit "\n                </div>\n              </div>\n            </div>"
  | none => []

/-- A field, enum.html:36-60. -/
def enumFieldHtml (md : Markdown) (f : Field) : Text :=
  lit "\n          <li>\n            <code>\n              <span class=\"field-name\">" ++ escape f.name.toList ++
  lit "</span>:\n              <span class=\"field-type\">" ++ escape (docType f.ty) ++
  lit "</span>\n              <span class=\"field-id\">@" ++ escape (printNat f.id.toNat) ++
  lit "</span>\n            </code>\n            <div class=\"markdown pl-4\">\n              " ++
  md.block (mergeComments f.comment) ++ lit "\n            </div>" ++ enumSizeHtml md (sizeText f.ty) ++ lit "\n          </li>"

/-- The loop, enum.html:35-61. -/
def enumFieldsHtml (md : Markdown) : List Field → Text
  | [] => []
  | f :: fs => enumFieldHtml md f ++ enumFieldsHtml md fs

/-- The fields of a variant, enum.html:31-64. -/
def variantFieldsHtml (md : Markdown) (v : Variant) : Text :=
  if v.fields.kind = .unit then []
  else lit "\n      <div class=\"pl-6\">\n        <h4>Fields</h4>\n        <ul>" ++ enumFieldsHtml md v.fields.fields ++
    lit "\n        </ul>\n      </div>"

/-- A variant, enum.html:23-65. -/
def variantHtml (md : Markdown) (v : Variant) : Text :=
  lit "\n    <li class=\"field-definition\">\n      <code class=\"name-variant text-lg\">\n        <span class=\"variant-name\">" ++
  escape v.name.toList ++ lit "</span>\n        <span class=\"variant-id\">@" ++ escape (printNat v.id.toNat) ++
  lit "</span>\n      </code>\n      <div class=\"markdown pl-6\">\n        " ++ md.block (mergeComments v.comment) ++
  lit "\n      </div>" ++ variantFieldsHtml md v ++ lit "\n    </li>"

/-- The loop, enum.html:22-66. -/
def variantsHtml (md : Markdown) : List Variant → Text
  | [] => []
  | v :: vs => variantHtml md v ++ variantsHtml md vs

/-- enum.html. -/
def enumHtml (md : Markdown) (path : List String) (e : Enum) : Text :=
  baseHtml path e.name (headingHtml .enum (trailHtml path.length 0 path) e.name ++ definitionHtml (docEnum e) ++
    commentHtml md e.comment ++ lit "\n<div class=\"section\">\n  <h3>Variants</h3>\n  <ul>" ++ variantsHtml md e.variants ++
    lit "\n  </ul>\n</div>\n")

mutual
/-- The files of a definition: `render_definition`, lib.rs:72-144, and `write_doc_output`, main.rs:94-106, at once. A text
that is missing is one that cannot be produced because of a panic. -/
def htmlDefinition (std : Std) (md : Markdown) (checked : Bool) (parent : List Text) (path : List String) :
    Definition → List (List Text × Option Text)
  | .module comment n ds =>
    (join parent (n.toList ++ "/index.html".toList), some (moduleHtml md (path ++ [n]) comment n ds)) ::
      htmlDefinitions std md checked (join parent n.toList) (path ++ [n]) ds
  | .struct s => [(join parent ("struct.".toList ++ s.name.toList ++ ".html".toList), structHtml md checked path s)]
  | .enum e => [(join parent ("enum.".toList ++ e.name.toList ++ ".html".toList), some (enumHtml md path e))]
  | .typeAlias a => [(join parent ("alias.".toList ++ a.name.toList ++ ".html".toList), some (aliasHtml md path a))]
  | .const c => [(join parent ("constant.".toList ++ c.name.toList ++ ".html".toList), some (constHtml std md path c))]
  | .import _ _ => []
/-- For all definitions. -/
def htmlDefinitions (std : Std) (md : Markdown) (checked : Bool) (parent : List Text) (path : List String) :
    List Definition → List (List Text × Option Text)
  | [] => []
  | d :: ds => htmlDefinition std md checked parent path d ++ htmlDefinitions std md checked parent path ds
end

/-- The files of a schema: `render_schema`, lib.rs:38-70, and the body of the loop in `doc`, main.rs:86-88. -/
def htmlSchema (std : Std) (md : Markdown) (checked : Bool) (out : List Text) (stem : String) (t : Schema) :
    List (List Text × Option Text) :=
  (join (join out stem.toList) (stem.toList ++ "/index.html".toList), some (indexHtml md [stem] t.comment stem t.definitions)) ::
    htmlDefinitions std md checked (join (join out stem.toList) stem.toList) [stem] t.definitions

end Mabo.Doc
