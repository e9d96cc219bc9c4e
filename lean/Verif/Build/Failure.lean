import Verif.Build.Project
import Verif.Compiler.ResolveLabels
import Verif.Lsp.Diagnostics
import Verif.Parser.Report
/-!
What the build script (`crates/mabo-build/src/lib.rs`) and the Go tool (`crates/mabo-go/src/main.rs`) tell about a project that they
reject: the file they name, and what `miette` (for the Go tool: `anyhow`) is given to print.

Simplifications: as in `Build/Project.lean`, reading the files is left out. Not modelled: the help texts and the rendering by
`miette`, of which only this is used: a report without source code shows its messages but none of its labels.
-/
namespace Mabo.Tell
open Mabo.Parse (Text)
open Mabo.Lsp (Finding errorMessage)
open Mabo.Spanned (Span)
open Mabo.Compiler (ValidateError)

/-- A schema file: its path, the stem of its name and its content. -/
structure Input where
  path : String
  stem : String
  text : Text

/-- The message of a `validate::Error` and those of its sources: mod.rs:24-42; `DuplicateId`, ids.rs:12-22; `DuplicateName`,
names.rs:10-24; `InvalidGenericType`, generics.rs:10-19. (`DuplicateFieldId` is transparent, ids.rs:45-55.) -/
def chain (focus : String → String) (e : ValidateError) : List String :=
  (match e with
    | .duplicateId (.variant ..) => ["duplicate ID found", "duplicate ID in an enum variant"]
    | .duplicateId _ => ["duplicate ID found", "duplicate ID in a field"]
    | .duplicateName (.variant _) => ["duplicate name found", "duplicate name in an enum variant"]
    | .duplicateName (.field _) => ["duplicate name found", "duplicate name in a field"]
    | .duplicateName (.inModule _) => ["duplicate name found", "duplicate name in the scope of a module"]
    | .invalidGeneric (.duplicate _) => ["invalid generic type found", "duplicate generic type name found"]
    | .invalidGeneric (.unused _) => ["invalid generic type found", "unused generic type argument found"]
    | .tupleSize _ => ["invalid tuple element size found"]) ++ [errorMessage focus e]

/-- The labels: ids.rs:37-42, 68-73, 87-92; names.rs:33-38, 48-53, 65-70; generics.rs:28-33, 43-45; tuples.rs:25-27. -/
def labels (f : Finding) : List (String × Span) := match f.first with
  | some first => [("first declared here", first), ("used here again", f.second)]
  | none => [("declared here", f.second)]

/-- What is told: `Error::Parse` and `Error::Compile`, mabo-build lib.rs:52-69, with the path they name. -/
inductive Told where
  /-- lib.rs:172-175; the report quotes the text (mabo-parser lib.rs:167-173). -/
  | syntax (path : String) (quoted : Labels.NamedSource) (report : Failing.Report)
  /-- lib.rs:177-180: the messages and labels of the error. No source code is given. -/
  | invalid (path : String) (messages : List String) (labels : List (String × Span))
  /-- lib.rs:190-193. -/
  | unresolved (path : String) (report : Labels.Report)

/-- After the loop that parses and validates: the schemas, an error or a panic. -/
inductive Loaded where
  | ok (files : List (String × Labels.File))
  | told (t : Told)
  | panic

/-- The loop that parses and validates, lib.rs:165-183. -/
def load (env : Lsp.Env) : List Input → Loaded
  | [] => .ok []
  | i :: rest =>
    match Spanned.parseSchema env.std i.text with
    | none =>
      match Failing.report env.std i.text with
      | some r => .told (.syntax i.path ⟨i.path, i.text⟩ r)
      | none => .panic
    | some s =>
      match Lsp.Spans.validateSchema env.checked env.pick s with
      | .err f => .told (.invalid i.path (chain env.focus f.error) (labels f))
      | .panic => .panic
      | .ok =>
        match load env rest with
        | .ok files => .ok ((i.stem, ⟨some i.path, i.text, s⟩) :: files)
        | .told t => .told t
        | .panic => .panic

/-- The first part of `Compiler::compile`, lib.rs:142-193: whether the project is rejected, and what is told. -/
def build (env : Lsp.Env) (style : Labels.Style) (order : Labels.Order) (inputs : List Input) : Loaded :=
  match load env inputs with
  | .told t => .told t
  | .panic => .panic
  | .ok files =>
    match Labels.schemas order files with
    | .err e => .told (.unresolved "" (Labels.report style e))
    | .panic => .panic
    | .ok => .ok files

/-- The source code that a report quotes. -/
def quoted : Told → Option Labels.NamedSource
  | .syntax _ q _ => some q
  | .invalid _ _ _ => none
  | .unresolved _ r => some r.source

/-- The path in front of a report. -/
def path : Told → String
  | .syntax p _ _ => p
  | .invalid p _ _ => p
  | .unresolved p _ => p

/-- The messages that the Go tool prints for errors of the validator and the resolver: `validate_schema(&schema)?` and
`resolve_schemas(..)?` in a `main` with `anyhow::Result`, main.rs:56 and 67. -/
def goMessages : Told → Option (List String)
  | .syntax _ _ _ => none
  | .invalid _ ms _ => some ms
  | .unresolved _ r => some r.messages

end Mabo.Tell
