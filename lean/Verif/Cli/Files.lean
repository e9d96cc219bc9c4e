import Verif.Parser.Schema
import Verif.Build.Project
/-!
Model of the commands that work on files: `mabo fmt` and `mabo check` (`crates/mabo-cli/src/main.rs`), the selection of the
files of a project (`crates/mabo-project/src/lib.rs`) and the reading of the files by a build script
(`crates/mabo-build/src/lib.rs`).

Simplifications. The file system: a path leads (links followed) to an inode or nowhere, an inode holds bytes unless it is a
directory or may not be read; nothing else changes files during a run. Whether and how far a write succeeds is an input.
Third-party parts are parameters: the walk over the directory (`ignore`: hidden and ignored entries left out), glob patterns
(`globset`, `glob`) and the project file (`toml`). Paths are lists of names. Messages are represented by the path they are about.
-/
namespace Mabo.Cli
open Mabo.Parse (Text Std)

/-- A path, as the list of its components. -/
abbrev Path := List Text

/-- The file system: where paths lead, and what is there (`none`: not a readable file). -/
structure Disk where
  inode : Path → Option Nat
  data : Nat → Option ByteArray

/-- `fs::read_to_string`: fails for missing and unreadable files, directories and bytes that are not UTF-8. -/
def Disk.read (d : Disk) (p : Path) : Option Text :=
  match d.inode p with
  | none => none
  | some i =>
    match d.data i with
    | none => none
    | some b => b.utf8Decode?.map Array.toList

/-- New content of an inode. -/
def Disk.set (d : Disk) (i : Nat) (b : ByteArray) : Disk := { d with data := fun j => if j = i then some b else d.data j }

/-- How a call of `fs::write` goes: it succeeds, the file cannot be opened, or the writing stops after some bytes (`fs::write`
truncates the file first). -/
inductive Fault where
  | done
  | refused
  | cut (n : Nat)

/-- How a command ends. -/
inductive Exit where
  | success
  | failure
  deriving DecidableEq

/-- What a command does: the file system afterwards, the exit code, the files it printed syntax errors of, and the files it
opened for writing. -/
structure Run where
  disk : Disk
  exit : Exit
  reported : List Path
  written : List Path

/-- `fs::write(file, &formatted)?` and the rest of the loop, main.rs:73-75. -/
def Disk.write (d : Disk) (o : Path → Fault) (p : Path) (b : ByteArray) (next : Disk → Run) : Run :=
  match d.inode p with
  | none => ⟨d, .failure, [], []⟩
  | some i =>
    match o p with
    | .refused => ⟨d, .failure, [], []⟩
    | .cut n => ⟨d.set i (b.extract 0 n), .failure, [], [p]⟩
    | .done =>
      let r := next (d.set i b)
      { r with written := p :: r.written }

/-- `format`, main.rs:58-79, on the selected files. -/
noncomputable def format (std : Std) (o : Path → Fault) : Disk → List Path → Run
  | d, [] => ⟨d, .success, [], []⟩
  | d, p :: rest =>
    match d.read p with
    | none => ⟨d, .failure, [], []⟩
    | some buf =>
      match Parse.parseSchema std buf with
      | none =>
        let r := format std o d rest
        { r with reported := p :: r.reported }
      | some s =>
        if buf ≠ Parse.printSchema std s then
          d.write o p (Parse.printSchema std s).utf8Encode fun d' => format std o d' rest
        else format std o d rest

/-- `check`, main.rs:46-56, on the selected files. -/
def check (std : Std) : Disk → List Path → Run
  | d, [] => ⟨d, .success, [], []⟩
  | d, p :: rest =>
    match d.read p with
    | none => ⟨d, .failure, [], []⟩
    | some buf =>
      match Parse.parseSchema std buf with
      | none =>
        let r := check std d rest
        { r with reported := p :: r.reported }
      | some _ => check std d rest

/-! ### Selection of files -/

/-- The name split at its last dot (`rsplit_file_at_dot` of the standard library, before its special cases). -/
def rsplitDot : Text → Option (Text × Text)
  | [] => none
  | c :: cs =>
    match rsplitDot cs with
    | some (b, a) => some (c :: b, a)
    | none => if c = '.' then some ([], cs) else none

/-- `Path::extension` of a name: none for names whose only dot is the first character. (`..` has none either; here it is
the empty extension, which makes no difference for the callers.) -/
def extension (name : Text) : Option Text :=
  match rsplitDot name with
  | some (_ :: _, a) => some a
  | _ => none

/-- `Path::file_stem` of a name. -/
def stem (name : Text) : Text :=
  match rsplitDot name with
  | some (c :: b, _) => c :: b
  | _ => name

/-- `path.extension().is_some_and(|ext| ext == "mabo")`, mabo-project lib.rs:209, main.rs:121-123. -/
def isMabo (p : Path) : Bool :=
  match p.getLast? with
  | none => false
  | some n => extension n == some ['m', 'a', 'b', 'o']

/-- The third-party parts: which strings are patterns, and which relative paths they match; the entries found below a
directory (relative to it, `none` for an entry that cannot be read); what `glob::glob` gives for a pattern; and the patterns
in the project file of a directory (`none` if it is missing or malformed). -/
structure Host where
  pattern : String → Option (Path → Bool)
  walk : Path → List (Option Path)
  glob : String → Option (List (Option Path))
  project : Path → Option (List String)

/-- The `try_fold` over the patterns, mabo-project lib.rs:181-195: fails at the first string that is no pattern. -/
def patternSet (h : Host) : List String → Option (List (Path → Bool))
  | [] => some []
  | s :: ss =>
    match h.pattern s with
    | none => none
    | some m => (patternSet h ss).map (m :: ·)

/-- The loop over the entries, mabo-project lib.rs:201-212. -/
def selectEntries (base : Path) (set : List (Path → Bool)) : List (Option Path) → Option (List Path)
  | [] => some []
  | none :: _ => none
  | some rel :: rest =>
    match selectEntries base set rest with
    | none => none
    | some fs => if set.any (· rel) && isMabo rel then some ((base ++ rel) :: fs) else some fs

/-- `collect_files`, mabo-project lib.rs:174-215. -/
def collectFiles (h : Host) (base : Path) (patterns : List String) : Option (List Path) :=
  match patternSet h patterns with
  | none => none
  | some set => selectEntries base set (h.walk base)

/-- `load`, mabo-project lib.rs:147-172: the files of the project in a directory. -/
def load (h : Host) (base : Path) : Option (List Path) :=
  match h.project base with
  | none => none
  | some patterns => collectFiles h base patterns

/-- The entries of one pattern given on the command line, main.rs:119-125. -/
def globEntries : List (Option Path) → Option (List Path)
  | [] => some []
  | none :: _ => none
  | some p :: rest =>
    match globEntries rest with
    | none => none
    | some fs => if isMabo p then some (p :: fs) else some fs

/-- The loop over the patterns given on the command line, main.rs:116-126. -/
def globFiles (h : Host) : List String → Option (List Path)
  | [] => some []
  | s :: ss =>
    match h.glob s with
    | none => none
    | some es =>
      match globEntries es, globFiles h ss with
      | some a, some b => some (a ++ b)
      | _, _ => none

/-- `project_or_files`, main.rs:108-129. -/
def projectOrFiles (h : Host) (dir : Path) (patterns : List String) : Option (List Path) :=
  if patterns.isEmpty then load h dir else globFiles h patterns

/-- `mabo fmt`, main.rs:58-79. -/
noncomputable def fmtCommand (std : Std) (h : Host) (o : Path → Fault) (dir : Path) (patterns : List String) (d : Disk) : Run :=
  match projectOrFiles h dir patterns with
  | none => ⟨d, .failure, [], []⟩
  | some files => format std o d files

/-- `mabo check`, main.rs:46-56. -/
def checkCommand (std : Std) (h : Host) (dir : Path) (patterns : List String) (d : Disk) : Run :=
  match projectOrFiles h dir patterns with
  | none => ⟨d, .failure, [], []⟩
  | some files => check std d files

/-- The first loop of `compile`, mabo-build lib.rs:157-164: all files are read before anything else happens; the stem of the
name is taken at the start of the second loop, lib.rs:167-171. -/
def readAll (d : Disk) : List Path → Option (List (String × Text))
  | [] => some []
  | p :: rest =>
    match d.read p, p.getLast?, readAll d rest with
    | some t, some n, some r => some ((String.ofList (stem n), t) :: r)
    | _, _, _ => none

/-- `Compiler::compile`, mabo-build lib.rs:142-218, on the project in a directory (the output directory is empty and
writable). -/
def buildCommand (std : Std) (h : Host) (order : Resolve.Order) (valid : Simplify.Schema → Bool) (checked : Bool)
    (dir : Path) (d : Disk) : Build.Build :=
  match load h dir with
  | none => ⟨.err, []⟩
  | some files =>
    match readAll d files with
    | none => ⟨.err, []⟩
    | some inputs => Build.compile order std valid checked inputs

end Mabo.Cli
