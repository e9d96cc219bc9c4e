import Verif.Cli.Files
import Verif.Lsp.Index
import Verif.Spec.Preload
/-!
Model of `discover` (`crates/mabo-project/src/lib.rs:117-139`) and of the files that the language server loads when it starts
(`initialize`, `crates/mabo-lsp/src/handlers/mod.rs:52-81`).

Simplifications: as in `Verif/Cli/Files.lean`. Directories are walked by the crate `ignore`, whose results are a parameter; paths are
absolute. Whether a text is a URI is a parameter as well; a URI is its text (`lsp_types::Uri` is equal if the texts are).
-/
namespace Mabo.Lsp
open Mabo.Cli (Path Host Disk)
open Mabo.Preload

/-- The outside: the projects (`Verif/Cli/Files.lean`), what `Walk::new` finds in a directory (with whether it is a regular file;
links are not followed; `none` for an entry that cannot be read), the disk, and the texts that are URIs. -/
structure Workspace where
  host : Host
  search : Path → List (Option (Path × Bool))
  disk : Disk
  isUri : Text → Bool

/-- A project, mabo-project lib.rs:97-107: its directory and the selected files. -/
structure Project where
  dir : Path
  files : List Path

/-- The filters of `discover`, lib.rs:127-133: unreadable entries are passed over, regular files that match `**/Mabo.toml` stay, and
the project is in the directory of the file. -/
def projectDir : Option (Path × Bool) → Option Path
  | some (p, true) => if p.getLast? = some "Mabo.toml".toList then some p.dropLast else none
  | some (_, false) => none
  | none => none

/-- `load_project` for each and `collect` into a `Result`, lib.rs:134-138: the first error is the result. (`load_project` reads
`Mabo.toml` in the directory, as `load` does, lib.rs:146-151.) -/
def loadProjects (h : Host) : List Path → Option (List Project)
  | [] => some []
  | d :: ds =>
    match Cli.load h d with
    | none => none
    | some fs => (loadProjects h ds).map (⟨d, fs⟩ :: ·)

/-- `discover`, lib.rs:117-139. -/
def discover (w : Workspace) (base : Path) : Option (List Project) := loadProjects w.host ((w.search base).filterMap projectDir)

/-- Texts between slashes. -/
def splitSlash : Text → List Text
  | [] => [[]]
  | c :: cs =>
    if c = '/' then [] :: splitSlash cs
    else match splitSlash cs with
      | [] => [[c]]
      | n :: ns => (c :: n) :: ns

/-- `Path::new` of an absolute path (without `.` and `..`). -/
def components (t : Text) : Path := (splitSlash t).filter fun n => !n.isEmpty

/-- Behind the scheme of a URI: after the first colon, if it comes before `/`, `?` and `#`. -/
def afterScheme (u : Text) : Text :=
  match u.dropWhile (fun c => c != ':' && c != '/' && c != '?' && c != '#') with
  | ':' :: rest => rest
  | _ => u

/-- Behind the authority. -/
def afterAuthority : Text → Text
  | '/' :: '/' :: rest => rest.dropWhile fun c => c != '/' && c != '?' && c != '#'
  | t => t

/-- `root.uri.path().as_str()`, mod.rs:56: the path of a URI, as it is written (RFC 3986). -/
def uriPath (u : Text) : Text := (afterAuthority (afterScheme u)).takeWhile fun c => c != '?' && c != '#'

/-- The files to load, mod.rs:52-76: of the projects in all folders of the workspace (folders for which `discover` fails are passed
over, mod.rs:56), those that can be read and whose path is a URI. The key is the path parsed as a URI. -/
def preload (w : Workspace) (folders : List Text) : List (Text × Text) :=
  ((folders.flatMap fun u => (discover w (components (uriPath u))).getD []).flatMap (·.files)).filterMap fun p =>
    match w.disk.read p with
    | none => none
    | some t => if w.isUri (pathText p) then some (pathText p, t) else none

/-- The documents of the server after `initialize`. -/
def initialFiles (w : Workspace) (folders : List Text) : Files Text := loadFiles (preload w folders)

end Mabo.Lsp
