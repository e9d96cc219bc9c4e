import Verif.Cli.DocCommand
import Verif.Spec.Cli
/-!
What `mabo doc` should do to the file system, said about the files before and after a run.
-/
namespace Mabo.Spec
open Mabo.DocRun
open Mabo.Parse (Text Std)
open Mabo.Doc (Markdown)
open Mabo.Cli (Path)

/-- The command writes `text` to `page` for this file: the file holds a schema, and this is one of the pages that show it
(`Spec/Doc.lean` and C52 to C54 and C76 say which there are and what is on them). -/
def PageOf (std : Std) (md : Markdown) (checked : Bool) (out : Path) (t : Tree) (file page : Path) (text : Text) : Prop :=
  ∃ src s u, Tree.read t file = some src ∧ Parse.parseSchema std src = some s ∧ Simplify.simplifySchema checked s = some u ∧
    (page, some text) ∈ Doc.htmlSchema std md checked out (nameOf file) u

/-- A page of one of the files. -/
def IsPage (std : Std) (md : Markdown) (checked : Bool) (out : Path) (t : Tree) (files : List Path) (page : Path)
    (text : Text) : Prop := ∃ f ∈ files, PageOf std md checked out t f page text

/-- The directory `p` contains `q`, directly or not. -/
def Above (p q : Path) : Prop := p ≠ [] ∧ ∃ r, r ≠ [] ∧ q = p ++ r

/-- The file can be documented: it is readable and a schema, and no number overflows (a struct with the id 2^32 - 1 has no
next id to show, C53). -/
def CanDocument (std : Std) (md : Markdown) (checked : Bool) (out : Path) (t : Tree) (file : Path) : Prop :=
  ∃ src s u, Tree.read t file = some src ∧ Parse.parseSchema std src = some s ∧ Simplify.simplifySchema checked s = some u ∧
    ∀ x ∈ Doc.htmlSchema std md checked out (nameOf file) u, x.2.isSome = true

/-- Nothing is in the way of a page: neither a directory in its place, nor a file in the place of a directory above it. -/
def Unobstructed (t : Tree) (page : Path) : Prop := t page ≠ some .dir ∧ ∀ p b, Above p page → t p ≠ some (.file b)

/-- The names of schema files, `….mabo`; no name contains a slash. -/
def SchemaFiles (files : List Path) : Prop := ∀ f ∈ files, SchemaName f ∧ ∀ n ∈ f, '/' ∉ n

/-- Every operation succeeds. -/
def undisturbed (t : Tree) : Machine := ⟨t, []⟩

end Mabo.Spec
