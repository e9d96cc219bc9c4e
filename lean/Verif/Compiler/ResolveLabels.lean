import Verif.Compiler.Resolve
import Verif.Parser.SpansLemmas
/-!
Model of `crates/mabo-compiler/src/resolve/{mod,error}.rs` once more, now on trees with spans: the errors with the labels that
they put on source files, as `miette` gets them.

Parameters: `order`, the order in which a hash map yields its entries, as in `Compiler/Resolve.lean`; `style`, the highlighting of
`highlight.rs`, which depends on the terminal. How `miette` draws a report is not modelled.
-/
namespace Mabo.Labels
open Mabo.Parse (Text)
open Mabo.Resolve (DeclKind)
open Mabo.Compiler (Outcome tryForEach)

/-- `Schema`, mabo-parser/src/lib.rs:134-147: the path as `display()` shows it, the source text, and the tree. -/
structure File where
  path : Option String
  source : Text
  schema : Spanned.Schema

/-- `miette::NamedSource<String>`. -/
structure NamedSource where
  name : String
  source : Text
deriving DecidableEq

/-- `NamedSource::new(schema.path…map_or_else(|| "<unknown>", display), schema.source)`, mod.rs:48-54, 60-66, 268-274, 285-291,
301-307 and 581-587. -/
def File.named (f : File) : NamedSource := ⟨f.path.getD "<unknown>", f.source⟩

/-- `Span` as a `Range<usize>`, mabo-parser/src/lib.rs:68-97: the bytes in front of both ends. -/
abbrev Range := Nat × Nat

/-- `From<Span> for Range<usize>`. -/
def rangeOf (source : Text) (sp : Spanned.Span) : Range := (Spanned.offset source sp.start, Spanned.offset source sp.stop)

/-- `Name`, mabo-parser/src/lib.rs:1123-1128, with its span in bytes of its own file. -/
structure Name where
  value : String
  span : Range
deriving DecidableEq

/-- A name of the file. -/
def nameIn (source : Text) (n : Spanned.Name) : Name := ⟨n.value, rangeOf source n.span⟩

/-- `Import`, mabo-parser/src/lib.rs:1278-1290: the names in it. -/
structure Import where
  segments : List Name
  element : Option Name

/-- `ExternalType`, mabo-parser/src/lib.rs:1026-1036: the names in it and the type arguments. -/
structure Ext where
  path : List Name
  name : Name
  args : List Spanned.Ty

/-- `Declaration`, mod.rs:100-103. -/
structure Declaration where
  kind : DeclKind
  name : Name

/-- `Module`, mod.rs:75-90. -/
inductive Module where
  | mk (name : String) (schema : File) (path : List String) (imports : List Import) (types : List Declaration)
      (modules : List Module) (definitions : List Spanned.Definition)

/-- Field access. -/
def Module.name : Module → String | .mk n _ _ _ _ _ _ => n
/-- Field access. -/
def Module.schema : Module → File | .mk _ f _ _ _ _ _ => f
/-- Field access. -/
def Module.path : Module → List String | .mk _ _ p _ _ _ _ => p
/-- Field access. -/
def Module.imports : Module → List Import | .mk _ _ _ i _ _ _ => i
/-- Field access. -/
def Module.types : Module → List Declaration | .mk _ _ _ _ t _ _ => t
/-- Field access. -/
def Module.modules : Module → List Module | .mk _ _ _ _ _ m _ => m
/-- Field access. -/
def Module.definitions : Module → List Spanned.Definition | .mk _ _ _ _ _ _ d => d

/-- `FxHashMap::insert`, keyed by the module's name. -/
def insertModule (m : Module) : List Module → List Module
  | [] => [m]
  | m' :: ms => if m'.name = m.name then m :: ms else m' :: insertModule m ms

/-- Modules inserted one after the other into the empty map. -/
def toModuleMap (ms : List Module) : List Module := ms.foldl (fun acc m => insertModule m acc) []

/-- `modules.get(name)`. -/
def getModule (ms : List Module) (name : String) : Option Module := ms.find? (fun m => m.name == name)

/-- The names of an import. -/
def importIn (source : Text) (i : Spanned.Import) : Import :=
  ⟨i.segments.map (nameIn source), i.element.map fun e => nameIn source e.2⟩

/-- Imports of a list of definitions, mod.rs:448. -/
def importsOf (source : Text) : List Spanned.Definition → List Import
  | [] => []
  | .import i :: ds => importIn source i :: importsOf source ds
  | _ :: ds => importsOf source ds

/-- `generics.as_ref().map_or(0, |g| g.types.len())`, mod.rs:430 and 436. -/
def paramCount : Option (Spanned.Delimited (Spanned.Punctuated Spanned.Name)) → Nat
  | none => 0
  | some d => d.inner.values.length

/-- Declarations of a list of definitions, mod.rs:428-447. -/
def typesOf (source : Text) : List Spanned.Definition → List Declaration
  | [] => []
  | .struct s :: ds => ⟨.struct (paramCount s.generics), nameIn source s.name⟩ :: typesOf source ds
  | .enum e :: ds => ⟨.enum (paramCount e.generics), nameIn source e.name⟩ :: typesOf source ds
  | .typeAlias a :: ds => ⟨.alias, nameIn source a.name⟩ :: typesOf source ds
  | .const c :: ds => ⟨.const, nameIn source c.name⟩ :: typesOf source ds
  | _ :: ds => typesOf source ds

mutual
/-- Module arm of `visit_module_tree`, mod.rs:422-427: the module tree of a definition, if it is a module. -/
def moduleTree (f : File) (path : List String) : Spanned.Definition → List Module
  | .module _ _ name _ ds _ =>
    [.mk name.value f (path ++ [name.value]) (importsOf f.source ds) (typesOf f.source ds)
      (toModuleMap (moduleTrees f (path ++ [name.value]) ds)) ds]
  | _ => []
/-- The module trees of all definitions, in order. -/
def moduleTrees (f : File) (path : List String) : List Spanned.Definition → List Module
  | [] => []
  | d :: ds => moduleTree f path d ++ moduleTrees f path ds
end

/-- `resolve_types`, mod.rs:389-391, with `visit_module_tree`, 397-453. -/
def resolveTypes (name : String) (f : File) : Module :=
  .mk name f [name] (importsOf f.source f.schema.definitions) (typesOf f.source f.schema.definitions)
    (toModuleMap (moduleTrees f [name] f.schema.definitions)) f.schema.definitions

/-- `ResolveLocal` with `MissingModule`, `MissingDefinition`, `GenericsCount` and `InvalidKind`, error.rs:97-180. -/
inductive LocalError where
  | missingModule (name : String) (path : List String) (used : Range)
  | missingDefinition (name : String) (path : List String) (used : Range)
  | genericsCount (definition usage : Nat) (declared used : Range)
  | invalidKind (kind : String) (declared used : Range)
deriving DecidableEq

/-- `ResolveImport` with `MissingSchema`, error.rs:182-211. -/
inductive ImportError where
  | missingSchema (name : String) (used : Range)
  | missingModule (name : String) (path : List String) (used : Range)
  | missingDefinition (name : String) (path : List String) (used : Range)
  | invalidKind (kind : String) (declared used : Range)
deriving DecidableEq

/-- `ResolveRemote` with `MissingImport`, `RemoteGenericsCount` and `RemoteInvalidKind`, error.rs:213-318; `source` and `declared`
are those of the declaration. -/
inductive RemoteError where
  | missingModule (name : String) (path : List String) (used : Range)
  | missingDefinition (name : String) (path : List String) (used : Range)
  | genericsCount (amount : Nat) (used : Range) (definition : Nat) (source : NamedSource) (declared : Range)
  | invalidKind (kind : String) (used : Range) (source : NamedSource) (declared : Range)
  | missingImport (path : List String) (name : String) (used : Range)
deriving DecidableEq

/-- `ResolveError`, error.rs:62-76. -/
inductive ResolveError where
  | loc (e : LocalError)
  | imp (e : ImportError)
  | remote (e : RemoteError)
deriving DecidableEq

/-- `try_fold(self, |module, name| module.modules.get(name).ok_or_else(MissingModule))`, mod.rs:137-144, 184-194 and 240-246: the
module, or the missing name and the path where it was looked for. -/
def walk (m : Module) : List Name → Except (Name × List String) Module
  | [] => .ok m
  | n :: ns =>
    match getModule m.modules n.value with
    | some m' => walk m' ns
    | none => .error (n, m.path)

/-- `types.iter().find(|d| d.name == name)`. -/
def findDecl (m : Module) (name : String) : Option Declaration := m.types.find? (fun d => d.name.value == name)

/-- `Module::resolve_local`, mod.rs:133-176. -/
def resolveLocal (m : Module) (ty : Ext) : Outcome LocalError :=
  match walk m ty.path with
  | .error (n, p) => .err (.missingModule n.value p ty.name.span)
  | .ok m =>
    match findDecl m ty.name.value with
    | none => .err (.missingDefinition ty.name.value m.path ty.name.span)
    | some d =>
      match d.kind with
      | .struct g | .enum g =>
        if g ≠ ty.args.length then .err (.genericsCount g ty.args.length d.name.span ty.name.span) else .ok
      | .alias | .const => .err (.invalidKind d.kind.asStr d.name.span ty.name.span)

/-- `ResolvedImport`, mod.rs:123-130. -/
inductive ResolvedImport where
  | module (m : Module)
  | type (schema : File) (name : Name) (generics : Nat)

/-- `Module::resolve_import`, mod.rs:178-230. -/
def resolveImport (self : Module) (i : Import) : Except ImportError ResolvedImport :=
  match (if i.segments.length < 2 then .ok self else walk self (i.segments.drop 1)) with
  | .error (n, p) => .error (.missingModule n.value p n.span)
  | .ok m =>
    match i.element with
    | none => .ok (.module m)
    | some element =>
      match findDecl m element.value with
      | none => .error (.missingDefinition element.value m.path element.span)
      | some d =>
        match d.kind with
        | .alias => .error (.invalidKind "alias" d.name.span element.span)
        | .const => .error (.invalidKind "const" d.name.span element.span)
        | .struct g | .enum g => .ok (.type self.schema d.name g)

/-- `Module::resolve_remote`, mod.rs:232-314. -/
def resolveRemote (self : Module) (ty : Ext) : Outcome RemoteError :=
  match (if (ty.path.head?.map (·.value)) = some self.name then .ok self else walk self ty.path) with
  | .error (n, p) => .err (.missingModule n.value p ty.name.span)
  | .ok m =>
    match findDecl m ty.name.value with
    | none => .err (.missingDefinition ty.name.value m.path ty.name.span)
    | some d =>
      match d.kind with
      | .struct g | .enum g =>
        if g ≠ ty.args.length then .err (.genericsCount ty.args.length ty.name.span g self.schema.named d.name.span) else .ok
      | .alias => .err (.invalidKind "type alias" ty.name.span self.schema.named d.name.span)
      | .const => .err (.invalidKind "constant" ty.name.span self.schema.named d.name.span)

mutual
/-- `visit_externals`, mod.rs:457-504: the external types in the order in which they are visited. -/
def externals (source : Text) : Spanned.Ty → List Ext
  | .prim _ _ => []
  | .single .nonZero _ _ _ _ => []
  | .single _ _ _ t _ => externals source t
  | .hashMap _ _ k _ v _ => externals source k ++ externals source v
  | .tuple _ ts _ _ _ => externalsList source ts
  | .array _ t _ _ _ => externals source t
  | .external path name _ args _ _ =>
    ⟨path.map fun x => nameIn source x.1, nameIn source name, args⟩ :: externalsList source args
/-- For all of them. -/
def externalsList (source : Text) : List Spanned.Ty → List Ext
  | [] => []
  | t :: ts => externals source t ++ externalsList source ts
end

/-- `LocallyMissingType`, mod.rs:317-320. -/
abbrev Missing := Ext × LocalError

/-- The names of the type parameters. -/
def paramNames : Option (Spanned.Delimited (Spanned.Punctuated Spanned.Name)) → List String
  | none => []
  | some d => d.inner.values.map (·.value)

/-- `is_generic`, mod.rs:326-332. -/
def isGeneric (ty : Ext) (generics : List String) : Bool :=
  ty.args.isEmpty && ty.path.isEmpty && generics.contains ty.name.value

/-- `resolve`, mod.rs:334-347: the references of a type that are not found in the module. -/
def resolveTy (m : Module) (generics : List String) (t : Spanned.Ty) : List Missing :=
  (externals m.schema.source t).filterMap fun ty =>
    if isGeneric ty generics then none
    else match resolveLocal m ty with
      | .err e => some (ty, e)
      | _ => none

/-- The types of the fields. -/
def fieldTypes : Spanned.Fields → List Spanned.Ty
  | .named d => d.inner.values.map (·.ty)
  | .unnamed d => d.inner.values.map (·.ty)
  | .unit => []

/-- `resolve_fields`, mod.rs:349-368. -/
def resolveFields (m : Module) (generics : List String) (fs : Spanned.Fields) : List Missing :=
  (fieldTypes fs).flatMap (resolveTy m generics)

/-- First loop of `resolve_module_types`, mod.rs:370-382. -/
def resolveDef (m : Module) : Spanned.Definition → List Missing
  | .struct s => resolveFields m (paramNames s.generics) s.fields
  | .enum e => e.variants.inner.values.flatMap fun v => resolveFields m (paramNames e.generics) v.fields
  | _ => []

/-- The order in which a hash map yields its entries. It depends on the keys, not on the values. -/
structure Order where
  apply : {α : Type} → List (String × α) → List (String × α)
  perm : ∀ {α : Type} (l : List (String × α)), (apply l).Perm l
  values : ∀ {α β : Type} (f : α → β) (l : List (String × α)),
    apply (l.map fun x => (x.1, f x.2)) = (apply l).map fun x => (x.1, f x.2)

mutual
/-- `resolve_module_types`, mod.rs:322-387. -/
def resolveModuleTypes (order : Order) : Module → List Missing
  | .mk n f p i t ms ds =>
    ds.flatMap (resolveDef (.mk n f p i t ms ds)) ++ (order.apply (resolveModules order ms)).flatMap (·.2)
/-- Second loop, mod.rs:384-386: the entries of the map of submodules. -/
def resolveModules (order : Order) : List Module → List (String × List Missing)
  | [] => []
  | m :: ms => (m.name, resolveModuleTypes order m) :: resolveModules order ms
end

/-- Body of the closure in `resolve_module_imports`, mod.rs:512-524; the outer `none` is the panic of `segments[0]`. -/
def resolveOneImport (schemas : List (String × Module)) (i : Import) : Option (Except ImportError ResolvedImport) :=
  match i.segments with
  | [] => none
  | root :: _ =>
    match schemas.find? (fun s => s.1 == root.value) with
    | none => some (.error (.missingSchema root.value root.span))
    | some s => some (resolveImport s.2 i)

/-- `collect::<Result<Vec<_>, _>>()` over the imports, mod.rs:506-526. -/
def resolveImports (schemas : List (String × Module)) : List Import → Option (Except ImportError (List ResolvedImport))
  | [] => some (.ok [])
  | i :: is =>
    match resolveOneImport schemas i with
    | none => none
    | some (.error e) => some (.error e)
    | some (.ok r) =>
      match resolveImports schemas is with
      | some (.ok rs) => some (.ok (r :: rs))
      | o => o

/-- The first imported module of a name, mod.rs:535-538. -/
def importedModule (imports : List ResolvedImport) (name : String) : Option Module :=
  imports.findSome? fun
    | .module m => if m.name = name then some m else none
    | .type _ _ _ => none

/-- The first imported type of a name, mod.rs:562-569. -/
def importedType (imports : List ResolvedImport) (name : String) : Option (File × Name × Nat) :=
  imports.findSome? fun
    | .module _ => none
    | .type f n g => if n.value = name then some (f, n, g) else none

/-- `resolve_type_remotely`, mod.rs:528-602. -/
def resolveTypeRemotely (imports : List ResolvedImport) (miss : Missing) : Outcome ResolveError :=
  if imports.isEmpty then .err (.loc miss.2)
  else
    match miss.1.path with
    | name :: _ =>
      match importedModule imports name.value with
      | some m => ((resolveRemote m miss.1).mapErr .remote).andThen (.err (.loc miss.2))
      | none => .err (.remote (.missingImport (miss.1.path.map (·.value)) miss.1.name.value miss.1.name.span))
    | [] =>
      match importedType imports miss.1.name.value with
      | some (f, n, g) =>
        if g = miss.1.args.length then .ok
        else .err (.remote (.genericsCount miss.1.args.length miss.1.name.span g f.named n.span))
      | none => .err (.remote (.missingImport [] miss.1.name.value miss.1.name.span))

/-- Body of the loop of `schemas`, mod.rs:39-70. -/
def resolveOne (order : Order) (modules : List (String × Module)) (m : Module) : Outcome ResolveError :=
  match resolveImports modules m.imports with
  | none => .panic
  | some (.error e) => .err (.imp e)
  | some (.ok imports) => tryForEach (resolveTypeRemotely imports) (resolveModuleTypes order m)

/-- `Error`, error.rs:8-14. -/
structure Error where
  source : NamedSource
  cause : ResolveError
deriving DecidableEq

/-- The loop of `schemas`, mod.rs:39-70. The file of a module is that of the schema at its index (mod.rs:42). -/
def schemasFrom (order : Order) (modules : List (String × Module)) : List (String × Module) → Outcome Error
  | [] => .ok
  | m :: ms => ((resolveOne order modules m.2).mapErr fun e => ⟨m.2.schema.named, e⟩).andThen (schemasFrom order modules ms)

/-- `schemas` (exported as `resolve_schemas`), mod.rs:33-73. -/
def schemas (order : Order) (values : List (String × File)) : Outcome Error :=
  let modules := values.map fun v => (v.1, resolveTypes v.1 v.2)
  schemasFrom order modules modules

/-! ### What `miette` gets -/

/-- `highlight::value` and `highlight::sample`, mabo-compiler/src/highlight.rs:6-12. -/
structure Style where
  value : String → String
  sample : String → String

/-- `LabeledSpan`: the text and the range. -/
abbrev Label := String × Range

/-- A related diagnostic. -/
structure Related where
  message : String
  source : NamedSource
  labels : List Label
deriving DecidableEq

/-- A diagnostic: the messages of the error and of its sources, the help text, the source code, the labels and the related
diagnostics (`impl Diagnostic for Error`, error.rs:22-58, which delegates everything but the source code). -/
structure Report where
  messages : List String
  help : Option String
  source : NamedSource
  labels : List Label
  related : List Related
deriving DecidableEq

/-- `path.join("::")`, mod.rs:94. -/
def joinPath (path : List String) : String := "::".intercalate path

/-- Labels in the order of the fields. -/
def used (r : Range) : Label := ("used here", r)
/-- As above. -/
def declaredHere (r : Range) : Label := ("declared here", r)

/-- `MissingModule`, error.rs:118-129. -/
def missingModule (style : Style) (name : String) (path : List String) (u : Range) : String × Option String × List Label :=
  ("module " ++ style.value name ++ " not found",
    some ("the resolution stopped at module path " ++ style.value (joinPath path)), [used u])

/-- `MissingDefinition`, error.rs:131-145. -/
def missingDefinition (style : Style) (name : String) (path : List String) (u : Range) : String × Option String × List Label :=
  ("definition " ++ style.value name ++ " not found in module " ++ style.value (joinPath path), none, [used u])

/-- `InvalidKind`, error.rs:166-180. -/
def invalidKind (style : Style) (kind : String) (d u : Range) : String × Option String × List Label :=
  ("definition found, but a " ++ style.sample kind ++ " can't be referenced",
    some "only struct and enum definitions can be used", [declaredHere d, used u])

/-- The message, help and labels of an error, and what is related. -/
def describe (style : Style) : ResolveError → (String × Option String × List Label) × List Related
  | .loc (.missingModule n p u) => (missingModule style n p u, [])
  | .loc (.missingDefinition n p u) => (missingDefinition style n p u, [])
  | .loc (.genericsCount g n d u) =>
    (("the definition has " ++ style.value (Nat.repr g) ++ " generics but the use side has " ++ style.value (Nat.repr n),
      some "the amount of generics must always match", [declaredHere d, used u]), [])
  | .loc (.invalidKind k d u) => (invalidKind style k d u, [])
  | .imp (.missingSchema n u) => (("schema " ++ style.value n ++ " not found", none, [used u]), [])
  | .imp (.missingModule n p u) => (missingModule style n p u, [])
  | .imp (.missingDefinition n p u) => (missingDefinition style n p u, [])
  | .imp (.invalidKind k d u) => (invalidKind style k d u, [])
  | .remote (.missingModule n p u) => (missingModule style n p u, [])
  | .remote (.missingDefinition n p u) => (missingDefinition style n p u, [])
  | .remote (.genericsCount n u g s d) =>
    (("the use side has " ++ style.value (Nat.repr n) ++ " generic(s), mismatching with the declaration",
      some "the amount of generics must always match", [used u]),
     [⟨"the declaration has " ++ style.value (Nat.repr g) ++ " generic(s), mismatching with the use side", s, [declaredHere d]⟩])
  | .remote (.invalidKind k u s d) =>
    (("definition found, but a " ++ style.sample k ++ " can't be referenced",
      some "only struct and enum definitions can be used", [used u]),
     [⟨"the definition is a " ++ style.sample k ++ ", which can't be referenced", s, [declaredHere d]⟩])
  | .remote (.missingImport p n u) =>
    (("missing import for type " ++ style.value (String.join (p.map (· ++ "::")) ++ n), none, [used u]), [])

/-- `ResolveError`'s own message, error.rs:62-76. -/
def stepMessage : ResolveError → String
  | .loc _ => "failed resolving type in local modules"
  | .imp _ => "failed resolving import statement"
  | .remote _ => "failed resolving type in remote modules"

/-- The diagnostic of an error; its own message is at error.rs:22-26. -/
def report (style : Style) (e : Error) : Report :=
  let x := describe style e.cause
  { messages := ["type resolution failed", stepMessage e.cause, x.1.1], help := x.1.2.1, source := e.source,
    labels := x.1.2.2, related := x.2 }

end Mabo.Labels
