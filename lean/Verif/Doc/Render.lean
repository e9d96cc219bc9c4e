import Verif.Compiler.Simplify
import Verif.Parser.Schema
import Verif.Build.Project
import Verif.Meta
/-!
Model of `crates/mabo-doc/src/lib.rs` and `templates.rs` with the templates in `crates/mabo-doc/templates/`, and of
`mabo doc` (`crates/mabo-cli/src/main.rs:79-106`).

Simplifications: a page is the data its template inserts (title, links, the text of the definition, fields, comments)
instead of HTML; escaping, layout, the conversion of comments from Markdown, the first paragraphs of comments in tables
and the wire sizes of fields are left out. Reading the project and failures of the file system are left out: the input of
`mabo doc` is the list of file stems and contents, its effect the list of files in the order they are written.
-/
namespace Mabo.Doc
open Mabo.Simplify
open Mabo.Parse (Text Std printNat printLiteral)
open Mabo.Schema (Prim)

/-! ### Text of types, fields and definitions -/

/-- Leaf arms of `Display for PrintType`, templates.rs:279-302. -/
def docPrim : Prim → Text
  | .bool => "bool".toList
  | .u8 => "u8".toList
  | .u16 => "u16".toList
  | .u32 => "u32".toList
  | .u64 => "u64".toList
  | .u128 => "u128".toList
  | .i8 => "i8".toList
  | .i16 => "i16".toList
  | .i32 => "i32".toList
  | .i64 => "i64".toList
  | .i128 => "i128".toList
  | .f32 => "f32".toList
  | .f64 => "f64".toList
  | .string => "string".toList
  | .stringRef => "&string".toList
  | .bytes => "bytes".toList
  | .bytesRef => "&bytes".toList
  | .boxString => "box<string>".toList
  | .boxBytes => "box<bytes>".toList

/-- `for seg in path { write!(f, "{seg}::") }`, templates.rs:319-321. -/
def docPath : List String → Text
  | [] => []
  | s :: ss => s.toList ++ "::".toList ++ docPath ss

mutual
/-- `Display for PrintType`, templates.rs:276-339. -/
def docType : Ty → Text
  | .prim p => docPrim p
  | .vec t => "vec<".toList ++ docType t ++ ">".toList
  | .hashMap k v => "hash_map<".toList ++ docType k ++ ", ".toList ++ docType v ++ ">".toList
  | .hashSet t => "hash_set<".toList ++ docType t ++ ">".toList
  | .option t => "option<".toList ++ docType t ++ ">".toList
  | .nonZero t => "non_zero<".toList ++ docType t ++ ">".toList
  | .tuple ts => "(".toList ++ docTypes true ts ++ ")".toList
  | .array t n => "[".toList ++ docType t ++ "; ".toList ++ printNat n.toNat ++ "]".toList
  | .external path name generics =>
    docPath path ++ name.toList ++
      (if generics.isEmpty then [] else "<".toList ++ docTypes true generics ++ ">".toList)
/-- The loops over the types, templates.rs:305-310 and 326-331; `first` is `i == 0`. -/
def docTypes (first : Bool) : List Ty → Text
  | [] => []
  | t :: ts => (if first then [] else ", ".toList) ++ docType t ++ docTypes false ts
end

/-- The loops over type parameters, templates.rs:79-84, 126-131 and 182-187. -/
def docNames (first : Bool) : List String → Text
  | [] => []
  | g :: gs => (if first then [] else ", ".toList) ++ g.toList ++ docNames false gs

/-- Type parameters, templates.rs:77-86, 124-133 and 180-189. -/
def docGenerics (gs : List String) : Text :=
  if gs.isEmpty then [] else "<".toList ++ docNames true gs ++ ">".toList

/-- `Display for PrintField` of a named field, templates.rs:261-267. -/
def docNamed (f : Field) : Text := f.name.toList ++ ": ".toList ++ docType f.ty ++ " @".toList ++ printNat f.id.toNat

/-- `Display for PrintField` of an unnamed field, templates.rs:268. -/
def docUnnamed (f : Field) : Text := docType f.ty ++ " @".toList ++ printNat f.id.toNat

/-- The loops over named fields, templates.rs:91-93 and 142-145: one line each. -/
def docNamedLines (indentation : Text) : List Field → Text
  | [] => []
  | f :: fs => indentation ++ docNamed f ++ ",\n".toList ++ docNamedLines indentation fs

/-- The loops over unnamed fields, templates.rs:98-103 and 150-155. -/
def docUnnamedList (first : Bool) : List Field → Text
  | [] => []
  | f :: fs => (if first then [] else ", ".toList) ++ docUnnamed f ++ docUnnamedList false fs

/-- `StructDetail::print_schema`, templates.rs:74-110. -/
def docStruct (s : Struct) : Text :=
  "struct ".toList ++ s.name.toList ++ docGenerics s.generics ++
    match s.fields.kind with
    | .named => " {\n".toList ++ docNamedLines "    ".toList s.fields.fields ++ "}".toList
    | .unnamed => "(".toList ++ docUnnamedList true s.fields.fields ++ ")".toList
    | .unit => []

/-- One variant in `EnumDetail::print_schema`, templates.rs:138-161. -/
def docVariant (v : Variant) : Text :=
  "    ".toList ++ v.name.toList ++
    match v.fields.kind with
    | .named => " {\n".toList ++ docNamedLines "        ".toList v.fields.fields ++ "    } @".toList ++
        printNat v.id.toNat ++ ",\n".toList
    | .unnamed => "(".toList ++ docUnnamedList true v.fields.fields ++ ") @".toList ++ printNat v.id.toNat ++ ",\n".toList
    | .unit => " @".toList ++ printNat v.id.toNat ++ ",\n".toList

/-- The loop over the variants, templates.rs:137-162. -/
def docVariants : List Variant → Text
  | [] => []
  | v :: vs => docVariant v ++ docVariants vs

/-- `EnumDetail::print_schema`, templates.rs:121-166. -/
def docEnum (e : Enum) : Text :=
  "enum ".toList ++ e.name.toList ++ docGenerics e.generics ++ " {\n".toList ++ docVariants e.variants ++ "}".toList

/-- `AliasDetail::print_schema`, templates.rs:177-193. -/
def docAlias (a : TypeAlias) : Text :=
  "type ".toList ++ a.name.toList ++ docGenerics a.generics ++ " = ".toList ++ docType a.target ++ ";".toList

/-- `ConstDetail::print_schema`, templates.rs:204-211. `PrintLiteral`, templates.rs:341-354, prints each kind of value with
the same function of the standard library as the formatter. -/
def docConst (std : Std) (c : Const) : Text :=
  "const ".toList ++ c.name.toList ++ ": ".toList ++ docType c.ty ++ " = ".toList ++ printLiteral std c.value ++ ";".toList

/-! ### Pages -/

/-- A link `<a href="{href}">{label}</a>`. -/
structure Link where
  href : Text
  label : String

/-- A line of the list of fields, struct.html:33-41 and enum.html:36-44. -/
structure Row where
  name : String
  ty : Text
  id : BitVec 32
  comment : Text

/-- What the templates insert: the `<title>`, the kind in the heading, the links of the heading, the text of the
definition, the comment, the line on the next free id (`none`: the computation panics), the lists of fields and of
variants, the links in the tables of a module, the address of the style sheet. -/
structure Page where
  title : String
  kind : String
  trail : List Link := []
  definition : Option Text := none
  comment : Text
  nextId : Option (Option (BitVec 32)) := some none
  fields : List Row := []
  variants : List (String × BitVec 32 × Text × List Row) := []
  tables : List Link := []
  stylesheet : Text

/-- `Display for PathUp`, templates.rs:229-236. -/
def upwards : Nat → Text
  | 0 => []
  | n + 1 => "../".toList ++ upwards n

/-- The links of a heading (`path_up`, templates.rs:221-225, e.g. struct.html:9-11): `len` is the length of the whole
path, `i` the position of the head of the list. -/
def trailFrom (len i : Nat) : List String → List Link
  | [] => []
  | p :: ps => ⟨upwards (len - i - 1) ++ "index.html".toList, p⟩ :: trailFrom len (i + 1) ps

/-- `"../".repeat(path.len())` and the address, base.html:7-8. -/
def stylesheet (path : List String) : Text := upwards path.length ++ "assets/style.css".toList

/-- `merge_comments`, templates.rs:248-254. -/
def mergeComments : List String → Text
  | [] => []
  | l :: ls => l.toList ++ '\n' :: mergeComments ls

/-- The lists of fields, struct.html:32-57 and enum.html:35-61. -/
def rows (fs : List Field) : List Row := fs.map fun f => ⟨f.name, docType f.ty, f.id, mergeComments f.comment⟩

/-- The rows for modules, index.html:15-28 and module.html:21-34. -/
def moduleLinks : List Definition → List Link
  | [] => []
  | .module _ n _ :: ds => ⟨n.toList ++ "/index.html".toList, n⟩ :: moduleLinks ds
  | _ :: ds => moduleLinks ds

/-- The rows for structs, index.html:34-47 and module.html:40-53. -/
def structLinks : List Definition → List Link
  | [] => []
  | .struct s :: ds => ⟨"struct.".toList ++ s.name.toList ++ ".html".toList, s.name⟩ :: structLinks ds
  | _ :: ds => structLinks ds

/-- The rows for enums, index.html:53-66 and module.html:59-72. -/
def enumLinks : List Definition → List Link
  | [] => []
  | .enum e :: ds => ⟨"enum.".toList ++ e.name.toList ++ ".html".toList, e.name⟩ :: enumLinks ds
  | _ :: ds => enumLinks ds

/-- The rows for aliases, index.html:72-85 and module.html:78-91. -/
def aliasLinks : List Definition → List Link
  | [] => []
  | .typeAlias a :: ds => ⟨"alias.".toList ++ a.name.toList ++ ".html".toList, a.name⟩ :: aliasLinks ds
  | _ :: ds => aliasLinks ds

/-- The rows for constants, index.html:91-104 and module.html:97-110. -/
def constLinks : List Definition → List Link
  | [] => []
  | .const c :: ds => ⟨"constant.".toList ++ c.name.toList ++ ".html".toList, c.name⟩ :: constLinks ds
  | _ :: ds => constLinks ds

/-- The tables of index.html and module.html in their order. -/
def tables (ds : List Definition) : List Link :=
  moduleLinks ds ++ structLinks ds ++ enumLinks ds ++ aliasLinks ds ++ constLinks ds

/-- `Output`, lib.rs:14-30. -/
inductive Output where
  | mk (name : String) (path : List String) (file : Text) (page : Page) (modules : List Output)

/-- Template struct.html, lib.rs:106-114. -/
def structPage (checked : Bool) (path : List String) (s : Struct) : Page where
  title := s.name
  kind := "Struct"
  trail := trailFrom path.length 0 path
  definition := some (docStruct s)
  comment := mergeComments s.comment
  nextId := Meta.nextFieldId checked s.fields
  fields := rows s.fields.fields
  stylesheet := stylesheet path

/-- Template enum.html, lib.rs:116-124. -/
def enumPage (path : List String) (e : Enum) : Page where
  title := e.name
  kind := "Enum"
  trail := trailFrom path.length 0 path
  definition := some (docEnum e)
  comment := mergeComments e.comment
  variants := e.variants.map fun v =>
    (v.name, v.id, mergeComments v.comment, if v.fields.kind = .unit then [] else rows v.fields.fields)
  stylesheet := stylesheet path

/-- Template alias.html, lib.rs:126-134. -/
def aliasPage (path : List String) (a : TypeAlias) : Page where
  title := a.name
  kind := "Alias"
  trail := trailFrom path.length 0 path
  definition := some (docAlias a)
  comment := mergeComments a.comment
  stylesheet := stylesheet path

/-- Template const.html, lib.rs:136-144. -/
def constPage (std : Std) (path : List String) (c : Const) : Page where
  title := c.name
  kind := "Constant"
  trail := trailFrom path.length 0 path
  definition := some (docConst std c)
  comment := mergeComments c.comment
  stylesheet := stylesheet path

/-- Template module.html, lib.rs:86-104; the path ends with the module. -/
def modulePage (path : List String) (comment : List String) (name : String) (ds : List Definition) : Page where
  title := name
  kind := "Module"
  trail := trailFrom path.length 0 (path.take (path.length - 1))
  comment := mergeComments comment
  tables := tables ds
  stylesheet := stylesheet path

/-- Template index.html, lib.rs:55-61. -/
def indexPage (path : List String) (comment : List String) (name : String) (ds : List Definition) : Page where
  title := name
  kind := "Schema"
  comment := mergeComments comment
  tables := tables ds
  stylesheet := stylesheet path

mutual
/-- `render_definition` with `render_module` … `render_const`, lib.rs:72-144. -/
def renderDefinition (std : Std) (checked : Bool) (path : List String) : Definition → Option Output
  | .module comment n ds =>
    some (.mk n (path ++ [n]) (n.toList ++ "/index.html".toList) (modulePage (path ++ [n]) comment n ds)
      (renderDefinitions std checked (path ++ [n]) ds))
  | .struct s => some (.mk s.name path ("struct.".toList ++ s.name.toList ++ ".html".toList) (structPage checked path s) [])
  | .enum e => some (.mk e.name path ("enum.".toList ++ e.name.toList ++ ".html".toList) (enumPage path e) [])
  | .typeAlias a => some (.mk a.name path ("alias.".toList ++ a.name.toList ++ ".html".toList) (aliasPage path a) [])
  | .const c => some (.mk c.name path ("constant.".toList ++ c.name.toList ++ ".html".toList) (constPage std path c) [])
  | .import _ _ => none
/-- `definitions.iter().filter_map(render_definition)`. -/
def renderDefinitions (std : Std) (checked : Bool) (path : List String) : List Definition → List Output
  | [] => []
  | d :: ds =>
    match renderDefinition std checked path d with
    | none => renderDefinitions std checked path ds
    | some o => o :: renderDefinitions std checked path ds
end

/-- `render_schema`, lib.rs:38-70; `name` is the stem of the schema file. -/
def renderSchema (std : Std) (checked : Bool) (name : String) (t : Schema) : Output :=
  .mk name [name] (name.toList ++ "/index.html".toList) (indexPage [name] t.comment name t.definitions)
    (renderDefinitions std checked [name] t.definitions)

/-! ### Writing -/

/-- The components of a relative path. -/
def components : Text → List Text
  | [] => [[]]
  | '/' :: cs => [] :: components cs
  | c :: cs => match components cs with
    | [] => [[c]]
    | w :: ws => (c :: w) :: ws

/-- `Path::join` of a relative path; a path is the list of its components. -/
def join (parent : List Text) (t : Text) : List Text := parent ++ components t

mutual
/-- `write_doc_output`, main.rs:94-106: the files in the order they are written. -/
def writeOutput (parent : List Text) : Output → List (List Text × Page)
  | .mk name _ file page modules => (join parent file, page) :: writeOutputs (join parent name.toList) modules
/-- The loop over the modules, main.rs:101-103. -/
def writeOutputs (parent : List Text) : List Output → List (List Text × Page)
  | [] => []
  | o :: os => writeOutput parent o ++ writeOutputs parent os
end

/-- The body of the loop in `doc` after the schema is simplified, main.rs:86-88. -/
def docSchema (std : Std) (checked : Bool) (out : List Text) (stem : String) (t : Schema) : List (List Text × Page) :=
  writeOutput (join out stem.toList) (renderSchema std checked stem t)

/-- `doc`, main.rs:79-92: how it ends, and the files written until then. -/
def doc (std : Std) (checked : Bool) (out : List Text) : List (String × Text) → Build.Step Unit × List (List Text × Page)
  | [] => (.ok (), [])
  | (stem, text) :: rest =>
    match Parse.parseSchema std text with
    | none => (.err, [])
    | some s =>
      match simplifySchema checked s with
      | none => (.panic, [])
      | some t =>
        let (r, files) := doc std checked out rest
        (r, docSchema std checked out stem t ++ files)

end Mabo.Doc
