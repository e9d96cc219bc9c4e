import Verif.Lsp.Symbols
import Verif.Parser.SpansLemmas
/-!
Model of the diagnostics of the language server: `crates/mabo-lsp/src/handlers/compile.rs`, what the notifications publish
(`handlers/mod.rs`), and the validator (`crates/mabo-compiler/src/validate/*.rs`) once more, now on trees with spans and with
the locations that its errors carry.

Parameters: `position`, as in `Lsp/Tokens.lean`; `failure text`, where the parser gives up on a text that is no schema, and the
message (`ParseSchemaError` is not modelled); `pick`, the element that comes first in the iteration of a hash map
(generics.rs:64, 91); `focus`, the highlighting of `mabo-compiler/src/highlight.rs`, which depends on the terminal.
-/
namespace Mabo.Lsp
open Mabo.Spanned (Span Name)
open Mabo.Compiler (nextId idStart visit ValidateError)

/-! ### The validator with locations -/

/-- An error of the validator with its locations `first` and `second`; the errors with only one location (`declared`) have no
`first`. -/
structure Finding where
  error : ValidateError
  first : Option Span
  second : Span
deriving DecidableEq

/-- Of the validator: `Ok(())`, `Err(e)` or a panic. -/
abbrev Check := Compiler.Outcome Finding

namespace Spans

/-- The span of the id of `IdGenerator::next_with_span`, mabo-compiler/src/lib.rs:62-74. -/
def idSpan (id : Option Spanned.Id) (fallback : Span) : Span := match id with
  | some id => id.span
  | none => fallback

/-- Named part of `validate_field_ids`, ids.rs:134-153. -/
def namedIds (checked : Bool) : BitVec 32 → List (BitVec 32 × (String × Span)) → List Spanned.NamedField → Check
  | _, _, [] => .ok
  | gen, visited, f :: fs =>
    match nextId checked gen (f.id.map Spanned.Id.value) with
    | none => .panic
    | some (id, gen) =>
      match visit id (f.name.value, idSpan f.id f.span) visited with
      | .inl other => .err ⟨.duplicateId (.named id f.name.value other.1), some other.2, idSpan f.id f.span⟩
      | .inr visited => namedIds checked gen visited fs

/-- Unnamed part of `validate_field_ids`, ids.rs:154-176. -/
def unnamedIds (checked : Bool) : Nat → BitVec 32 → List (BitVec 32 × (Nat × Span)) → List Spanned.UnnamedField → Check
  | _, _, _, [] => .ok
  | pos, gen, visited, f :: fs =>
    match nextId checked gen (f.id.map Spanned.Id.value) with
    | none => .panic
    | some (id, gen) =>
      match visit id (pos, idSpan f.id f.span) visited with
      | .inl other => .err ⟨.duplicateId (.unnamed id (pos + 1) (other.1 + 1)), some other.2, idSpan f.id f.span⟩
      | .inr visited => unnamedIds checked (pos + 1) gen visited fs

/-- `validate_field_ids`, ids.rs:132-181 (also `validate_struct_ids`, 94-96). -/
def validateFieldIds (checked : Bool) : Spanned.Fields → Check
  | .named d => namedIds checked idStart [] d.inner.values
  | .unnamed d => unnamedIds checked 0 idStart [] d.inner.values
  | .unit => .ok

/-- `find_map` of `validate_enum_ids`, ids.rs:104-128. -/
def variantIds (checked : Bool) : BitVec 32 → List (BitVec 32 × (String × Span)) → List Spanned.Variant → Check
  | _, _, [] => .ok
  | gen, visited, v :: vs =>
    match nextId checked gen (v.id.map Spanned.Id.value) with
    | none => .panic
    | some (id, gen) =>
      match visit id (v.name.value, idSpan v.id v.span) visited with
      | .inl other => .err ⟨.duplicateId (.variant id v.name.value other.1), some other.2, idSpan v.id v.span⟩
      | .inr visited => (validateFieldIds checked v.fields).andThen (variantIds checked gen visited vs)

/-- Named fields of `validate_field_names`, names.rs:107-120. -/
def fieldNames : List (String × Span) → List Spanned.NamedField → Check
  | _, [] => .ok
  | visited, f :: fs =>
    match visit f.name.value f.name.span visited with
    | .inl first => .err ⟨.duplicateName (.field f.name.value), some first, f.name.span⟩
    | .inr visited => fieldNames visited fs

/-- `validate_field_names`, names.rs:104-126 (also `validate_struct_names`, 73-75). -/
def validateFieldNames : Spanned.Fields → Check
  | .named d => fieldNames [] d.inner.values
  | .unnamed _ | .unit => .ok

/-- `find_map` of `validate_enum_names`, names.rs:81-100. -/
def variantNames : List (String × Span) → List Spanned.Variant → Check
  | _, [] => .ok
  | visited, v :: vs =>
    match visit v.name.value v.name.span visited with
    | .inl first => .err ⟨.duplicateName (.variant v.name.value), some first, v.name.span⟩
    | .inr visited => (validateFieldNames v.fields).andThen (variantNames visited vs)

/-- The name a definition introduces, names.rs:133-144. -/
def definitionName : Spanned.Definition → Option Name
  | .module _ _ name _ _ _ => some name
  | .struct s => some s.name
  | .enum e => some e.name
  | .typeAlias a => some a.name
  | .const c => some c.name
  | .import i => match i.element with
    | some (_, name) => some name
    | none => i.segments.getLast?

/-- `find_map` of `validate_names_in_module`, names.rs:128-155. -/
def moduleNames : List (String × Span) → List Spanned.Definition → Check
  | _, [] => .ok
  | visited, d :: ds =>
    match definitionName d with
    | none => moduleNames visited ds
    | some name =>
      match visit name.value name.span visited with
      | .inl first => .err ⟨.duplicateName (.inModule name.value), some first, name.span⟩
      | .inr visited => moduleNames visited ds

/-- `validate_duplicate_generics`, generics.rs:103-119. -/
def duplicateGenerics : List (String × Span) → List Name → Check
  | _, [] => .ok
  | visited, g :: gs =>
    match visit g.value g.span visited with
    | .inl first => .err ⟨.invalidGeneric (.duplicate g.value), some first, g.span⟩
    | .inr visited => duplicateGenerics visited gs

/-- Closure in `validate_field_generics`, generics.rs:127-131 and 136-140. -/
def markUsed (unvisited : List Name) (e : List String × String × List Ast.DataType) : List Name :=
  if e.1.isEmpty ∧ e.2.2.isEmpty then unvisited.filter (·.value != e.2.1) else unvisited

/-- `validate_field_generics`, generics.rs:123-144; the types are visited without their spans. -/
def fieldGenerics (fields : Spanned.Fields) (unvisited : List Name) : List Name :=
  (Compiler.fieldTypes fields.erase).foldl (fun u t => (Compiler.visitExternals t).foldl markUsed u) unvisited

/-- `unvisited.into_iter().next()`, generics.rs:64-70 and 91-97. -/
def unusedError (pick : List Name → Option Name) (unvisited : List Name) : Check := match pick unvisited with
  | none => .ok
  | some g => .err ⟨.invalidGeneric (.unused g.value), none, g.span⟩

/-- `validate_struct_generics`, generics.rs:49-71, and `validate_enum_generics`, 74-98; `mark` goes over the fields. -/
def validateGenerics (pick : List Name → Option Name) (generics : Option (Spanned.Delimited (Spanned.Punctuated Name)))
    (mark : List Name → List Name) : Check := match generics with
  | none => .ok
  | some d => (duplicateGenerics [] d.inner.values).andThen (unusedError pick (mark d.inner.values))

/-- The span of a type: the parser records it around the whole type (types.rs:49-67); the tree of the model has only the
spans of the tokens, so this is from the first to the last one. -/
def typeSpan (t : Spanned.Ty) : Span := match (visitType t).head?, (visitType t).getLast? with
  | some a, some b => ⟨a.span.start, b.span.stop⟩
  | _, _ => ⟨[], []⟩

/-- `validate_tuple_size`, tuples.rs:73-86: `declared` is the span of the type that is validated. -/
def tupleSizes (t : Spanned.Ty) : Check :=
  (Compiler.tupleSizes t.erase).mapErr fun e => ⟨.tupleSize e, none, typeSpan t⟩

/-- The types of the fields. -/
def fieldTypes : Spanned.Fields → List Spanned.Ty
  | .named d => d.inner.values.map (·.ty)
  | .unnamed d => d.inner.values.map (·.ty)
  | .unit => []

/-- `validate_field_tuples`, tuples.rs:52-62 (also `validate_struct_tuples`, 41-43). -/
def validateFieldTuples (f : Spanned.Fields) : Check := Compiler.tryForEach tupleSizes (fieldTypes f)

/-- Struct arm of `definition`, validate/mod.rs:81-86. -/
def validateStruct (checked : Bool) (pick : List Name → Option Name) (s : Spanned.Struct) : Check :=
  (validateFieldIds checked s.fields).andThen <|
  (validateFieldNames s.fields).andThen <|
  (validateGenerics pick s.generics (fieldGenerics s.fields)).andThen <|
  validateFieldTuples s.fields

/-- Enum arm of `definition`, validate/mod.rs:87-92. -/
def validateEnum (checked : Bool) (pick : List Name → Option Name) (e : Spanned.Enum) : Check :=
  (variantIds checked idStart [] e.variants.inner.values).andThen <|
  (variantNames [] e.variants.inner.values).andThen <|
  (validateGenerics pick e.generics
    fun u => e.variants.inner.values.foldl (fun u v => fieldGenerics v.fields u) u).andThen <|
  Compiler.tryForEach (fun v => validateFieldTuples v.fields) e.variants.inner.values

mutual
/-- `definition`, validate/mod.rs:75-103. -/
def validateDefinition (checked : Bool) (pick : List Name → Option Name) : Spanned.Definition → Check
  | .module _ _ _ _ ds _ => (moduleNames [] ds).andThen (validateDefinitions checked pick ds)
  | .struct s => validateStruct checked pick s
  | .enum e => validateEnum checked pick e
  | .typeAlias a => tupleSizes a.target
  | .const c => tupleSizes c.ty
  | .import _ => .ok
/-- `definitions.iter().try_for_each(definition)`. -/
def validateDefinitions (checked : Bool) (pick : List Name → Option Name) : List Spanned.Definition → Check
  | [] => .ok
  | d :: ds => (validateDefinition checked pick d).andThen (validateDefinitions checked pick ds)
end

/-- `schema` (exported as `validate_schema`), validate/mod.rs:70-73. -/
def validateSchema (checked : Bool) (pick : List Name → Option Name) (s : Spanned.Schema) : Check :=
  (moduleNames [] s.definitions).andThen (validateDefinitions checked pick s.definitions)

end Spans

/-! ### compile.rs -/

/-- `lsp_types::Diagnostic`; `severity`, `code`, `source`, `tags` and the rest are always `None`. The related information is a
list of locations with messages. -/
structure Diagnostic (Uri : Type) where
  range : Position × Position
  message : String
  related : List ((Uri × (Position × Position)) × String)
deriving DecidableEq

/-- The `#[error(..)]` attributes: ids.rs:28, 61, 80; names.rs:27, 42, 57; generics.rs:22, 37; tuples.rs:12-19. -/
def errorMessage (focus : String → String) : ValidateError → String
  | .duplicateId (.variant id name other) =>
    "duplicate ID " ++ Nat.repr id.toNat ++ " in enum variant `" ++ name ++ "`, already used in `" ++ other ++ "`"
  | .duplicateId (.named id name other) =>
    "duplicate ID " ++ Nat.repr id.toNat ++ " in field `" ++ name ++ "`, already used in `" ++ other ++ "`"
  | .duplicateId (.unnamed id pos other) =>
    "duplicate ID " ++ Nat.repr id.toNat ++ " in position " ++ Nat.repr pos ++ ", already used at " ++ Nat.repr other
  | .duplicateName (.variant name) => "duplicate variant name `" ++ name ++ "` in enum"
  | .duplicateName (.field name) => "duplicate field name `" ++ name ++ "`"
  | .duplicateName (.inModule name) => "duplicate definition name `" ++ name ++ "`"
  | .invalidGeneric (.duplicate name) => "duplicate generic type name `" ++ name ++ "`"
  | .invalidGeneric (.unused name) => "unused generic type argument `" ++ name ++ "`"
  | .tupleSize e => "tuples with " ++ focus (match e with
      | .empty => "zero elements"
      | .single => "a single element"
      | .tooLarge => "more than 12 elements") ++ " are invalid"

/-- `get_range`, compile.rs:252-257: `expect` panics. -/
def expectRange (position : Nat → Option Position) (source : Text) (span : Span) : Outcome (Position × Position) :=
  match getRange position source span with
  | .ok r => .ok r
  | _ => .panic

/-- `validate_schema_diagnostic`, compile.rs:199-242, and `diagnostic_with_related`, 244-250. -/
def findingDiagnostic {Uri : Type} (focus : String → String) (position : Nat → Option Position) (source : Text) (file : Uri)
    (f : Finding) : Outcome (Diagnostic Uri) :=
  match f.first with
  | none => (expectRange position source f.second).bind fun range => .ok ⟨range, errorMessage focus f.error, []⟩
  | some first =>
    (expectRange position source f.second).bind fun range =>
    (expectRange position source first).bind fun firstRange =>
      .ok ⟨range, errorMessage focus f.error, [((file, firstRange), "first used here")]⟩

/-- What the model does not compute: see the head of the file. -/
structure Env where
  std : Parse.Std
  checked : Bool
  pick : List Name → Option Name
  focus : String → String
  failure : Text → Text × String

/-- `compile`, compile.rs:16-24: `ok none` is a schema without errors, `some` the diagnostic. A failure of the parser
(compile.rs:32-197) gives an empty range where it happened. -/
def diagnose {Uri : Type} (env : Env) (position : Text → Nat → Option Position) (index text : Text) (file : Uri) :
    Outcome (Option (Diagnostic Uri)) :=
  match Spanned.parseSchema env.std text with
  | none => (expectRange (position index) text ⟨(env.failure text).1, (env.failure text).1⟩).bind fun range =>
      .ok (some ⟨range, (env.failure text).2, []⟩)
  | some s =>
    match Spans.validateSchema env.checked env.pick s with
    | .ok => .ok none
    | .err f => (findingDiagnostic env.focus (position index) text file f).bind fun d => .ok (some d)
    | .panic => .panic

/-! ### Publishing -/

section
variable {Uri : Type} [DecidableEq Uri]

/-- A `textDocument/publishDiagnostics` notification. -/
structure Published (Uri : Type) where
  uri : Uri
  diagnostics : List (Diagnostic Uri)

/-- `publish_diagnostics` in `did_open`, mod.rs:170-180, and `did_change`, mod.rs:220-230: the diagnostic of the file that is
stored for the document from now on. It was computed when the file was built (mod.rs:346-373). -/
def publish (env : Env) (position : Text → Nat → Option Position) (fs : Files Uri) (u : Uri) : Outcome (List (Published Uri)) :=
  match get fs u with
  | none => .ok []
  | some f => (diagnose env position f.index f.content u).bind fun d => .ok [⟨u, d.toList⟩]

/-- One round of `main_loop`, main.rs:127-151, with what is published. `did_change` of a document that is not stored
returns early (mod.rs:195-198) unless the change is the full text. -/
def stepPublish (env : Env) (offset : Text → Position → Option Nat) (position : Text → Nat → Option Position) (fs : Files Uri)
    (n : Notification Uri) : Outcome (Files Uri × List (Published Uri)) :=
  (step offset fs n).bind fun fs' =>
    match n with
    | .didOpen u _ | .didChange u _ => (publish env position fs' u).bind fun p => .ok (fs', p)
    | .didClose _ | .didDelete _ => .ok (fs', [])

/-- `main_loop`, main.rs:69-155: all that is published, in order. -/
def runPublish (env : Env) (offset : Text → Position → Option Nat) (position : Text → Nat → Option Position) :
    Files Uri → List (Notification Uri) → Outcome (Files Uri × List (Published Uri))
  | fs, [] => .ok (fs, [])
  | fs, n :: ns => (stepPublish env offset position fs n).bind fun x =>
    (runPublish env offset position x.1 ns).bind fun y => .ok (y.1, x.2 ++ y.2)
end

end Mabo.Lsp
