import Verif.Parser.Types
/-!
Model of the logger of the language server: `crates/mabo-lsp/src/logging.rs`, with threads that log at the same time and server
processes that share the log file.

Simplifications. A message reaches an output as the pieces that are written one after the other; the pieces of other writers may
come between them (the file is opened for appending, so every piece goes to its end). The clock is the number of seconds since
some midnight, local time, and does not go backwards. `main.rs:34` gives no connection, so the `ClientLogger` (which builds its
message in memory and sends it as one) is not used. What `eprintln!` prints about failed writes is not modelled. The values of
the pairs are the texts that `Display` gives. Records that the features of the `log` crate remove at compile time do not get here.
-/
namespace Mabo.Logging
open Mabo.Parse (Text)

/-- `log::Level`. -/
inductive Level where
  | error
  | warn
  | info
  | debug
  | trace
  deriving DecidableEq

/-- The order of levels: `Error` is the least. -/
def Level.rank : Level → Nat
  | .error => 1
  | .warn => 2
  | .info => 3
  | .debug => 4
  | .trace => 5

/-- `Display` of a level. -/
def Level.text : Level → Text
  | .error => "ERROR".toList
  | .warn => "WARN".toList
  | .info => "INFO".toList
  | .debug => "DEBUG".toList
  | .trace => "TRACE".toList

/-- `log::Record`: what is logged. -/
structure Record where
  level : Level
  target : Text
  args : Text
  pairs : List (Text × Text)
  deriving DecidableEq

/-- `CombinedLogger::enabled`, logging.rs:242-249. -/
def enabled (r : Record) : Bool :=
  r.level.rank ≤ Level.warn.rank ||
  ("mabo_lsp".toList.isPrefixOf r.target && r.level.rank ≤ Level.trace.rank) ||
  ("mabo_compiler".toList.isPrefixOf r.target && r.level.rank ≤ Level.trace.rank) ||
  ("mabo_parser".toList.isPrefixOf r.target && r.level.rank ≤ Level.trace.rank) ||
  ("lsp_server".toList.isPrefixOf r.target && r.level.rank ≤ Level.info.rank)

/-- A digit. -/
def digit (n : Nat) : Char := Char.ofNat (48 + n % 10)

/-- Two digits. -/
def twoDigits (n : Nat) : Text := [digit (n / 10), digit n]

/-- `FORMAT_HMS`, logging.rs:17. -/
def hms (t : Nat) : Text :=
  twoDigits (t / 3600 % 24) ++ [':'] ++ twoDigits (t / 60 % 60) ++ [':'] ++ twoDigits (t % 60)

/-- `{:5}`. -/
def pad (t : Text) : Text := t ++ List.replicate (5 - t.length) ' '

/-- `write_message` with `FormatVisitor`, logging.rs:34-123: the pieces that are written. -/
def pieces (time : Nat) (r : Record) : List Text :=
  [hms time, [' '], pad r.level.text, [' '], r.target, [':', ' '], r.args] ++
  r.pairs.flatMap (fun p => [[' '], p.1, ['='], p.2]) ++ [['\n']]

/-- Where a thread is in `CombinedLogger::log`, logging.rs:251-259. -/
inductive Phase where
  | idle
  /-- At `self.file.lock()`, logging.rs:197. -/
  | wants (r : Record)
  /-- In `write_message` to the file. -/
  | file (r : Record) (left : List Text)
  /-- In `write_message` to standard error, logging.rs:225. -/
  | stderr (left : List Text)

/-- The threads, the lock of each process, the clock, the log file and standard error (of all processes together). -/
structure State where
  todo : Nat → List Record
  phase : Nat → Phase
  lock : Nat → Option Nat
  clock : Nat
  file : Text
  stderr : Text

/-- A thread gets another phase. -/
def State.goto (s : State) (i : Nat) (p : Phase) : State := { s with phase := fun j => if j = i then p else s.phase j }

/-- Before a thread logs its next record. -/
def State.drop (s : State) (i : Nat) (rest : List Record) : State := { s with todo := fun j => if j = i then rest else s.todo j }

/-- The lock of a process changes. -/
def State.setLock (s : State) (p : Nat) (l : Option Nat) : State := { s with lock := fun q => if q = p then l else s.lock q }

/-- One step of some thread, or of the clock; `proc` is the process of a thread, and writes may fail if `faulty`. -/
inductive Step (proc : Nat → Nat) (faulty : Bool) : State → State → Prop where
  /-- Time passes. -/
  | tick {s : State} : Step proc faulty s { s with clock := s.clock + 1 }
  /-- `if self.enabled(record.metadata())`, logging.rs:252. -/
  | skip {s : State} {i : Nat} {r : Record} {rest : List Record} : s.phase i = .idle → s.todo i = r :: rest → enabled r = false →
      Step proc faulty s (s.drop i rest)
  | start {s : State} {i : Nat} {r : Record} {rest : List Record} : s.phase i = .idle → s.todo i = r :: rest → enabled r = true →
      Step proc faulty s ((s.drop i rest).goto i (.wants r))
  /-- `self.file.lock()`, logging.rs:197; then the clock is read, logging.rs:39. -/
  | lock {s : State} {i : Nat} {r : Record} : s.phase i = .wants r → s.lock (proc i) = none →
      Step proc faulty s ((s.setLock (proc i) (some i)).goto i (.file r (pieces s.clock r)))
  /-- One piece goes to the file. -/
  | write {s : State} {i : Nat} {r : Record} {w : Text} {ws : List Text} : s.phase i = .file r (w :: ws) →
      Step proc faulty s { s.goto i (.file r ws) with file := s.file ++ w }
  /-- The piece cannot be written, or only its first characters: `?` ends `write_message`. -/
  | fail {s : State} {i : Nat} {r : Record} {w v : Text} {ws : List Text} : faulty = true → s.phase i = .file r (w :: ws) → v <+: w →
      Step proc faulty s { s.goto i (.file r []) with file := s.file ++ v }
  /-- The guard of the lock is dropped at the end of the statement, and the next logger comes; the clock is read again. -/
  | unlock {s : State} {i : Nat} {r : Record} : s.phase i = .file r [] →
      Step proc faulty s ((s.setLock (proc i) none).goto i (.stderr (pieces s.clock r)))
  /-- One piece goes to standard error. -/
  | print {s : State} {i : Nat} {w : Text} {ws : List Text} : s.phase i = .stderr (w :: ws) →
      Step proc faulty s { s.goto i (.stderr ws) with stderr := s.stderr ++ w }
  | done {s : State} {i : Nat} : s.phase i = .stderr [] → Step proc faulty s (s.goto i .idle)

/-- Any number of steps. -/
inductive Steps (proc : Nat → Nat) (faulty : Bool) : State → State → Prop where
  | refl {s : State} : Steps proc faulty s s
  | step {s t u : State} : Steps proc faulty s t → Step proc faulty t u → Steps proc faulty s u

/-- `init`, logging.rs:19-32: nothing logged yet; the file has what earlier servers wrote to it (`append(true)`, logging.rs:184). -/
def start (prog : Nat → List Record) (clock : Nat) (old : Text) : State := ⟨prog, fun _ => .idle, fun _ => none, clock, old, []⟩

end Mabo.Logging
