import Verif.Compiler.Generator
import Verif.Compiler.Resolve
import Verif.Parser.Schema
/-!
Model of `Compiler::compile` in `crates/mabo-build/src/lib.rs`: from the texts of the schema files of a project to the
written source files.

Simplifications: reading the project file and the schema files, and failures of the file system, are left out: the input
is the list of file stems and contents. A written file is represented by the simplified schema it was generated from; the
meaning of the generated code is in `Build/Crate.lean`. Parameter `valid` says for which schemas `syn::parse2` accepts the
generated tokens (names that are Rust keywords, for instance, are not accepted).
-/
namespace Mabo.Build
open Mabo.Parse (Text Std)

/-- A computation with `?`: a value, an error, or a panic. -/
inductive Step (α : Type) where
  | ok (a : α)
  | err
  | panic

/-- How `compile` ends, and the files in the output directory at that time, by stem. -/
structure Build where
  result : Step Unit
  written : List (String × Simplify.Schema)

/-- `fs::write` of `{stem}.rs`, mabo-build lib.rs:209-214: replaces a file of the same name. -/
def write (files : List (String × Simplify.Schema)) (stem : String) (s : Simplify.Schema) : List (String × Simplify.Schema) :=
  (stem, s) :: files.filter (·.1 ≠ stem)

/-- The loop that parses and validates, mabo-build lib.rs:165-183. -/
def loadAll (std : Std) (checked : Bool) : List (String × Text) → Step (List (String × Ast.Schema))
  | [] => .ok []
  | (stem, text) :: rest =>
    match Parse.parseSchema std text with
    | none => .err
    | some s =>
      match Compiler.validateSchema checked s with
      | .err _ => .err
      | .panic => .panic
      | .ok =>
        match loadAll std checked rest with
        | .ok ss => .ok ((stem, s) :: ss)
        | .err => .err
        | .panic => .panic

/-- The loop that generates and writes, mabo-build lib.rs:199-215. -/
def generateAll (valid : Simplify.Schema → Bool) (checked : Bool) :
    List (String × Ast.Schema) → List (String × Simplify.Schema) → Build
  | [], files => ⟨.ok (), files⟩
  | (stem, s) :: rest, files =>
    match Simplify.simplifySchema checked s with
    | none => ⟨.panic, files⟩
    | some t =>
      if Generator.compileOk t then
        if valid t then generateAll valid checked rest (write files stem t) else ⟨.err, files⟩
      else ⟨.panic, files⟩

/-- `Compiler::compile`, mabo-build lib.rs:142-218, on an empty output directory. -/
def compile (order : Resolve.Order) (std : Std) (valid : Simplify.Schema → Bool) (checked : Bool)
    (inputs : List (String × Text)) : Build :=
  match loadAll std checked inputs with
  | .err => ⟨.err, []⟩
  | .panic => ⟨.panic, []⟩
  | .ok validated =>
    match Resolve.resolveSchemas order validated with
    | .err _ => ⟨.err, []⟩
    | .panic => ⟨.panic, []⟩
    | .ok => generateAll valid checked validated []

end Mabo.Build
