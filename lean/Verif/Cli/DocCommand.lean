import Verif.Cli.Files
import Verif.Doc.Html
/-!
Model of `mabo doc` on the file system: `doc` and `write_doc_output` (`crates/mabo-cli/src/main.rs:79-106`) with the
standard library's `create_dir_all` and `fs::write`.

Simplifications. The file system is a tree without links, every path starts at the root, and nobody else changes files during
a run. Which of the operations that change something fail, and how much of a page is written before that, is an input
(`faults`); since every failure ends the command, a failure also stands for a kill of the process at this moment. Rendering is
`Doc/Html.lean`, with Markdown as a parameter; a page that is missing there stands for a panic.
-/
namespace Mabo.DocRun
open Mabo.Parse (Text Std)
open Mabo.Doc (Markdown)
open Mabo.Cli (Path Fault stem)

/-- What is at a path. -/
inductive Entry where
  | dir
  | file (b : ByteArray)
  deriving DecidableEq

/-- The file system: what is at the paths below the root, `none` if nothing is. -/
abbrev Tree := Path → Option Entry

/-- The file system, and how the next operations that change it go (all the others succeed). -/
structure Machine where
  tree : Tree
  faults : List Fault

/-- How the next operation goes. -/
def Machine.fault (m : Machine) : Fault := m.faults.headD .done

/-- A new entry after an operation. -/
def Machine.set (m : Machine) (p : Path) (e : Entry) : Machine :=
  ⟨fun q => if q = p then some e else m.tree q, m.faults.tail⟩

/-- `fs::read_to_string`. -/
def Tree.read (t : Tree) (p : Path) : Option Text :=
  match t p with
  | some (.file b) => b.utf8Decode?.map Array.toList
  | _ => none

/-- `fs::create_dir_all` of the standard library: the missing directories are made from the first to the last; `done` is there
already. -/
def makeDirs (m : Machine) (done : Path) : List Text → Bool × Machine
  | [] => (true, m)
  | c :: cs =>
    match m.tree (done ++ [c]) with
    | some .dir => makeDirs m (done ++ [c]) cs
    | some (.file _) => (false, m)
    | none =>
      match m.fault with
      | .done => makeDirs (m.set (done ++ [c]) .dir) (done ++ [c]) cs
      | _ => (false, m)

/-- `fs::write` to a file in a directory that is there: the file is made or emptied first. -/
def writeFile (m : Machine) (p : Path) (b : ByteArray) : Bool × Machine :=
  match m.tree p with
  | some .dir => (false, m)
  | _ =>
    match m.fault with
    | .done => (true, m.set p (.file b))
    | .refused => (false, m)
    | .cut n => (false, m.set p (.file (b.extract 0 n)))

/-- `write_doc_output`, main.rs:94-106, for the files in the order they are written (`writeOutput` in `Doc/Render.lean`). -/
noncomputable def writePages (m : Machine) : List (Path × Text) → Bool × Machine
  | [] => (true, m)
  | (p, t) :: rest =>
    match makeDirs m [] p.dropLast with
    | (false, m) => (false, m)
    | (true, m) =>
      match writeFile m p t.utf8Encode with
      | (false, m) => (false, m)
      | (true, m) => writePages m rest

/-- All pages, if all of them could be rendered. -/
def rendered : List (Path × Option Text) → Option (List (Path × Text))
  | [] => some []
  | (p, some t) :: rest => (rendered rest).map ((p, t) :: ·)
  | (_, none) :: _ => none

/-- How a command ends. -/
inductive End where
  | success
  | failure
  | panic
  deriving DecidableEq

/-- The name of the schema, mabo-doc lib.rs:46-51. -/
def nameOf (p : Path) : String :=
  match p.getLast? with
  | some n => String.ofList (stem n)
  | none => "root"

/-- The loop of `doc`, main.rs:82-89: a file is read when its turn comes, and all its pages are rendered before the first of
them is written. -/
noncomputable def docFiles (std : Std) (md : Markdown) (checked : Bool) (out : Path) (m : Machine) : List Path → End × Machine
  | [] => (.success, m)
  | f :: rest =>
    match Tree.read m.tree f with
    | none => (.failure, m)
    | some text =>
      match Parse.parseSchema std text with
      | none => (.failure, m)
      | some s =>
        match Simplify.simplifySchema checked s with
        | none => (.panic, m)
        | some t =>
          match rendered (Doc.htmlSchema std md checked out (nameOf f) t) with
          | none => (.panic, m)
          | some pages =>
            match writePages m pages with
            | (false, m) => (.failure, m)
            | (true, m) => docFiles std md checked out m rest

/-- `doc`, main.rs:79-92, for the project in a directory. -/
noncomputable def docCommand (std : Std) (md : Markdown) (checked : Bool) (h : Cli.Host) (dir out : Path) (m : Machine) :
    End × Machine :=
  match Cli.load h dir with
  | none => (.failure, m)
  | some files => docFiles std md checked out m files

end Mabo.DocRun
