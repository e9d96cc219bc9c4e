import Verif.Go.Render
import Verif.Build.Project
/-!
Model of `crates/mabo-go/src/main.rs`: from the texts of the schema files of a project to the written files.

Simplifications: reading the project and schema files, creation of directories and failures of the file system are left out,
as in `Build/Project.lean`; the formatter `gofmt`, run at the end unless `--no-fmt` is given, too. Paths are lists of names;
the package name, which is not checked, is taken to be a plain name without separators.
-/
namespace Mabo.Go
open Mabo.Parse (Text Std)
open Mabo.Build (Step)

/-- The calls of `fs::write` so far, in order. -/
abbrev Writes := List (List Text × Text)

/-- What is in a file after some writes: `fs::write` replaces the content. -/
def onDisk (ws : Writes) (p : List Text) : Option Text := (ws.reverse.find? fun w => decide (w.1 = p)).map (·.2)

mutual
/-- `write_output`, main.rs:95-106. -/
def writeOutput (parent : List Text) : Output → Writes
  | .mk name content modules =>
    (parent ++ [name.toList, name.toList ++ ".go".toList], content) :: writeOutputs (parent ++ [name.toList]) modules
/-- The loop over the modules, main.rs:101-103. -/
def writeOutputs (parent : List Text) : List Output → Writes
  | [] => []
  | o :: os => writeOutput parent o ++ writeOutputs parent os
end

/-- The loop that generates and writes, main.rs:73-78: how it ends, and the writes. -/
def generateAll (std : Std) (checked : Bool) (out : List Text) (pkg : String) :
    List (String × Ast.Schema) → Step Unit × Writes
  | [] => (.ok (), [])
  | (_, s) :: rest =>
    match Simplify.simplifySchema checked s with
    | none => (.panic, [])
    | some t =>
      match renderSchema std pkg t with
      | none => (.panic, [])
      | some o =>
        let (r, ws) := generateAll std checked out pkg rest
        (r, writeOutput out o ++ ws)

/-- `main`, main.rs:16-93, for the given output directory, package name and schema files (stems and contents). Parsing and
validation (main.rs:45-60) are the same steps as in mabo-build (`Build.loadAll`). -/
def run (order : Resolve.Order) (std : Std) (checked : Bool) (out : List Text) (pkg : String)
    (inputs : List (String × Text)) : Step Unit × Writes :=
  match Build.loadAll std checked inputs with
  | .err => (.err, [])
  | .panic => (.panic, [])
  | .ok validated =>
    match Resolve.resolveSchemas order validated with
    | .err _ => (.err, [])
    | .panic => (.panic, [])
    | .ok => generateAll std checked out pkg validated

end Mabo.Go
