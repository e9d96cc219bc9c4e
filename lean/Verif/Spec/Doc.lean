import Verif.Compiler.Simplify
import Verif.Spec.Compiler
/-!
Specification for the generated documentation: where the page of a definition lies, what a relative link refers to, and
when two definitions are the same apart from comments.
-/
namespace Mabo.Spec
open Mabo

/-! ### Definitions without comments -/

/-- The fields without comments. -/
def bareFields (fs : Simplify.Fields) : Simplify.Fields :=
  { fs with fields := fs.fields.map fun f => { f with comment := [] } }

/-- The definition without its comments, those of its fields and variants. -/
def bare : Simplify.Definition → Simplify.Definition
  | .struct s => .struct { s with comment := [], fields := bareFields s.fields }
  | .enum e => .enum { e with
      comment := [], variants := e.variants.map fun v => { v with comment := [], fields := bareFields v.fields } }
  | .typeAlias a => .typeAlias { a with comment := [] }
  | .const c => .const { c with comment := [] }
  | d => d

/-- Every field and every variant has a written number. -/
def Numbered (d : Ast.Definition) : Prop := ∀ l, IdList d l → ∀ o ∈ l, o.isSome = true

/-! ### Places -/

/-- The lists of definitions of a schema, with the names of the enclosing modules. -/
inductive ModuleAt (s : Ast.Schema) : List String → List Ast.Definition → Prop where
  | root : ModuleAt s [] s.definitions
  | module {mods : List String} {ds ds' : List Ast.Definition} {comment : List String} {name : String} :
      ModuleAt s mods ds → Ast.Definition.module comment name ds' ∈ ds → ModuleAt s (mods ++ [name]) ds'

/-- The name of a definition; imports have none. -/
def defName : Ast.Definition → Option String
  | .module _ n _ => some n
  | .struct s => some s.name
  | .enum e => some e.name
  | .typeAlias a => some a.name
  | .const c => some c.name
  | .import _ => none

/-- The page of a definition, seen from the directory of the module it is in. -/
def pageFile : Ast.Definition → Option (List (List Char))
  | .module _ n _ => some [n.toList, "index.html".toList]
  | .struct s => some ["struct.".toList ++ s.name.toList ++ ".html".toList]
  | .enum e => some ["enum.".toList ++ e.name.toList ++ ".html".toList]
  | .typeAlias a => some ["alias.".toList ++ a.name.toList ++ ".html".toList]
  | .const c => some ["constant.".toList ++ c.name.toList ++ ".html".toList]
  | .import _ => none

/-- The directory of the pages of a module (of the schema if there are no names). -/
def docDir (out : List (List Char)) (stem : String) (mods : List String) : List (List Char) :=
  out ++ [stem.toList, stem.toList] ++ mods.map String.toList

/-- What the page of a module (or of the schema) has to list for a definition: its page and its name. -/
def entry (out : List (List Char)) (stem : String) (mods : List String) (d : Ast.Definition) :
    Option (List (List Char) × String) :=
  match pageFile d, defName d with
  | some f, some n => some (docDir out stem mods ++ f, n)
  | _, _ => none

/-! ### Relative links -/

/-- A text cut at its slashes. -/
def cutSlashes : List Char → List (List Char)
  | [] => [[]]
  | c :: cs =>
    if c = '/' then [] :: cutSlashes cs
    else match cutSlashes cs with
      | [] => [[c]]
      | w :: ws => (c :: w) :: ws

/-- Follows the parts of a relative link from a directory: `..` is the parent. -/
def follow (dir : List (List Char)) : List (List Char) → List (List Char)
  | [] => dir
  | w :: ws => follow (if w = "..".toList then dir.dropLast else dir ++ [w]) ws

/-- The file a relative link on the page `page` refers to. -/
def target (page : List (List Char)) (href : List Char) : List (List Char) := follow page.dropLast (cutSlashes href)

end Mabo.Spec
