import Verif.Cli.Files
import Verif.Spec.Resolve
/-!
What the commands on files should do, said about the files before and after a run.
-/
namespace Mabo.Spec
open Mabo Mabo.Cli
open Mabo.Parse (Text Std)

/-- The file with this inode is a text file with this text. -/
def Holds (d : Disk) (i : Nat) (t : Text) : Prop := d.data i = some t.utf8Encode

/-- One of the paths leads to this inode. -/
def Selects (d : Disk) (files : List Path) (i : Nat) : Prop := ∃ p ∈ files, d.inode p = some i

/-- All the paths lead to different files. -/
def Distinct (d : Disk) (files : List Path) : Prop := files.Pairwise fun p q => d.inode p = none ∨ d.inode p ≠ d.inode q

/-- `d'` is `d` after every file the paths lead to has been formatted, and nothing else has been changed. -/
def Formatted (std : Std) (d : Disk) (files : List Path) (d' : Disk) : Prop :=
  d'.inode = d.inode ∧
  (∀ i, Selects d files i → ∃ t, Holds d i t ∧ Holds d' i (Parse.fmtFile std t)) ∧
  ∀ i, ¬ Selects d files i → d'.data i = d.data i

/-- What `fs::write` of `t` to a file leaves if the process dies meanwhile: some first bytes. -/
def Truncated (b : ByteArray) (t : Text) : Prop := ∃ n, b = t.utf8Encode.extract 0 n

/-- The state of the disk when the formatter is killed at some moment: before any of the remaining files, during the write
of the next one, or later. -/
inductive Killed (std : Std) : Disk → List Path → Disk → Prop where
  | now {d : Disk} {files : List Path} : Killed std d files d
  | writing {d : Disk} {p : Path} {rest : List Path} {i : Nat} {t : Text} {b : ByteArray} :
      d.inode p = some i → Holds d i t → Parse.fmtFile std t ≠ t → Truncated b (Parse.fmtFile std t) →
      Killed std d (p :: rest) (d.set i b)
  | later {d d' : Disk} {p : Path} {rest : List Path} {i : Nat} {t : Text} :
      d.inode p = some i → Holds d i t → Killed std (d.set i (Parse.fmtFile std t).utf8Encode) rest d' →
      Killed std d (p :: rest) d'

/-- The path ends in a name of the form `….mabo`. -/
def SchemaName (p : Path) : Prop := ∃ dir name, name ≠ [] ∧ p = dir ++ [name ++ ".mabo".toList]

end Mabo.Spec
