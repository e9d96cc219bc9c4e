import Verif.Lsp.Logging
/-!
What a log should look like.
-/
namespace Mabo.Spec
open Mabo.Logging
open Mabo.Parse (Text)

/-- A message in the log: the thread, the time of day in seconds, what was logged, and what of it is in the log. -/
structure Logged where
  thread : Nat
  time : Nat
  record : Record
  text : Text

/-- The line for a record: the time as `hh:mm:ss`, the level in five columns, the target, the message and the pairs. -/
def logLine (time : Nat) (r : Record) : Text :=
  hms time ++ [' '] ++ pad r.level.text ++ [' '] ++ r.target ++ ": ".toList ++ r.args ++
  (r.pairs.flatMap fun p => [' '] ++ p.1 ++ ['='] ++ p.2) ++ ['\n']

/-- The message is there as a whole. -/
def Whole (e : Logged) : Prop := e.text = logLine e.time e.record

/-- The log of an output: what it held before, and the messages. -/
def logText (old : Text) (es : List Logged) : Text := old ++ es.flatMap (·.text)

/-- What a thread has logged, in order. -/
def byThread (es : List Logged) (i : Nat) : List Record := (es.filter fun e => e.thread == i).map (·.record)

/-- What of the records of a thread belongs in the log: warnings and errors, everything from the crates of this project, and
information from the library of the protocol. -/
def Wanted (r : Record) : Prop :=
  r.level = .error ∨ r.level = .warn ∨ "mabo_lsp".toList <+: r.target ∨ "mabo_compiler".toList <+: r.target ∨
  "mabo_parser".toList <+: r.target ∨ ("lsp_server".toList <+: r.target ∧ r.level = .info)

instance (r : Record) : Decidable (Wanted r) := by unfold Wanted; infer_instance

/-- The records that belong in the log. -/
def wanted (rs : List Record) : List Record := rs.filter fun r => decide (Wanted r)

/-- All messages but the last are there as a whole. -/
def AllButLast (es : List Logged) : Prop := ∀ a e b, es = a ++ e :: b → b ≠ [] → Whole e

/-- Nobody logs anymore. -/
def Finished (s : State) : Prop := ∀ i, s.phase i = .idle ∧ s.todo i = []

/-- The record is written on one line. -/
def OneLine (r : Record) : Prop := '\n' ∉ r.target ∧ '\n' ∉ r.args ∧ ∀ p ∈ r.pairs, '\n' ∉ p.1 ∧ '\n' ∉ p.2

instance (r : Record) : Decidable (OneLine r) := by unfold OneLine; infer_instance

/-- A text cut after each line break; the rest that has none is the second part. -/
def cutLines : Text → List Text × Text
  | [] => ([], [])
  | c :: cs =>
    if c = '\n' then (['\n'] :: (cutLines cs).1, (cutLines cs).2)
    else match (cutLines cs).1 with
      | [] => ([], c :: (cutLines cs).2)
      | l :: ls => ((c :: l) :: ls, (cutLines cs).2)

end Mabo.Spec
