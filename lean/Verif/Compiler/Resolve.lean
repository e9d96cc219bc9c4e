import Verif.Compiler.Validate
/-!
Model of `crates/mabo-compiler/src/resolve/mod.rs`.

Simplifications: source locations in diagnostics are dropped; the back reference `Module::schema` (only used for
diagnostics) is dropped. A hash map of submodules is the list of its modules (the key is always the module's own name);
the order in which `modules.values()` yields them is a parameter `order` of the functions that iterate over it.
-/
namespace Mabo.Resolve
open Mabo.Ast Mabo.Compiler

/-- `DeclarationKind`, mod.rs:105-110. -/
inductive DeclKind where
  | struct (generics : Nat)
  | enum (generics : Nat)
  | alias
  | const
deriving DecidableEq, Repr

/-- `DeclarationKind::as_str`, mod.rs:113-120. -/
def DeclKind.asStr : DeclKind → String
  | .struct _ => "struct"
  | .enum _ => "enum"
  | .alias => "type alias"
  | .const => "constant"

/-- `Declaration`, mod.rs:100-103. -/
structure Declaration where
  kind : DeclKind
  name : String
deriving DecidableEq, Repr

/-- `Module`, mod.rs:75-90: name, path, imports, types, modules, definitions. -/
inductive Module where
  | mk (name : String) (path : List String) (imports : List Import) (types : List Declaration)
      (modules : List Module) (definitions : List Definition)

/-- Field access. -/
def Module.name : Module → String | .mk n _ _ _ _ _ => n
/-- Field access. -/
def Module.path : Module → List String | .mk _ p _ _ _ _ => p
/-- Field access. -/
def Module.imports : Module → List Import | .mk _ _ i _ _ _ => i
/-- Field access. -/
def Module.types : Module → List Declaration | .mk _ _ _ t _ _ => t
/-- Field access. -/
def Module.modules : Module → List Module | .mk _ _ _ _ m _ => m
/-- Field access. -/
def Module.definitions : Module → List Definition | .mk _ _ _ _ _ d => d

/-- `path_to_string`, mod.rs:93-95: the components are kept as a list. -/
def Module.pathToString (m : Module) : List String := m.path

/-- `FxHashMap::insert`, keyed by the module's name. -/
def insertModule (m : Module) : List Module → List Module
  | [] => [m]
  | m' :: ms => if m'.name = m.name then m :: ms else m' :: insertModule m ms

/-- Modules inserted one after the other into the empty map. -/
def toModuleMap (ms : List Module) : List Module := ms.foldl (fun acc m => insertModule m acc) []

/-- `modules.get(name)`. -/
def getModule (ms : List Module) (name : String) : Option Module := ms.find? (fun m => m.name == name)

/-- Imports of a list of definitions, mod.rs:448. -/
def importsOf : List Definition → List Import
  | [] => []
  | .import i :: ds => i :: importsOf ds
  | _ :: ds => importsOf ds

/-- Declarations of a list of definitions, mod.rs:428-447. -/
def typesOf : List Definition → List Declaration
  | [] => []
  | .struct s :: ds => ⟨.struct s.generics.length, s.name⟩ :: typesOf ds
  | .enum e :: ds => ⟨.enum e.generics.length, e.name⟩ :: typesOf ds
  | .typeAlias a :: ds => ⟨.alias, a.name⟩ :: typesOf ds
  | .const c :: ds => ⟨.const, c.name⟩ :: typesOf ds
  | _ :: ds => typesOf ds

mutual
/-- Module arm of `visit_module_tree`, mod.rs:422-427: the module tree of a definition, if it is a module. -/
def moduleTree (path : List String) : Definition → List Module
  | .module _ name ds =>
    [.mk name (path ++ [name]) (importsOf ds) (typesOf ds) (toModuleMap (moduleTrees (path ++ [name]) ds)) ds]
  | _ => []
/-- The module trees of all definitions, in order. -/
def moduleTrees (path : List String) : List Definition → List Module
  | [] => []
  | d :: ds => moduleTree path d ++ moduleTrees path ds
end

/-- `resolve_types`, mod.rs:389-391, with `visit_module_tree`, 397-453. -/
def resolveTypes (name : String) (s : Ast.Schema) : Module :=
  .mk name [name] (importsOf s.definitions) (typesOf s.definitions) (toModuleMap (moduleTrees [name] s.definitions))
    s.definitions

/-- Payloads of `MissingModule`, `MissingDefinition`, `GenericsCount` and `InvalidKind` in the variants of
`ResolveLocal`, resolve/error.rs. -/
inductive LocalError where
  | missingModule (name : String) (path : List String)
  | missingDefinition (name : String) (path : List String)
  | genericsCount (definition usage : Nat)
  | invalidKind (kind : String)
deriving DecidableEq, Repr

/-- `ResolveImport`, resolve/error.rs. -/
inductive ImportError where
  | missingSchema (name : String)
  | missingModule (name : String) (path : List String)
  | missingDefinition (name : String) (path : List String)
  | invalidKind (kind : String)
deriving DecidableEq, Repr

/-- `ResolveRemote`, resolve/error.rs; the type name of `MissingImport` as path and name. -/
inductive RemoteError where
  | missingModule (name : String) (path : List String)
  | missingDefinition (name : String) (path : List String)
  | genericsCount (amount declared : Nat)
  | invalidKind (kind : String)
  | missingImport (path : List String) (name : String)
deriving DecidableEq, Repr

/-- `ResolveError`, resolve/error.rs. -/
inductive ResolveError where
  | loc (e : LocalError)
  | imp (e : ImportError)
  | remote (e : RemoteError)
deriving DecidableEq, Repr

/-- An `ExternalType` use, as produced by `visitExternals`: path, name, type arguments. -/
abbrev Ext := List String × String × List DataType

/-- `try_fold(self, |module, name| module.modules.get(name).ok_or_else(MissingModule))`, mod.rs:138-145 and 187-194:
the module, or the missing name and the path where it was looked for. -/
def walk (m : Module) : List String → Except (String × List String) Module
  | [] => .ok m
  | n :: ns =>
    match getModule m.modules n with
    | some m' => walk m' ns
    | none => .error (n, m.pathToString)

/-- `types.iter().find(|d| d.name == name)`. -/
def findDecl (m : Module) (name : String) : Option Declaration := m.types.find? (fun d => d.name == name)

/-- `Module::resolve_local`, mod.rs:133-176. -/
def resolveLocal (m : Module) (ty : Ext) : Outcome LocalError :=
  match walk m ty.1 with
  | .error (n, p) => .err (.missingModule n p)
  | .ok m =>
    match findDecl m ty.2.1 with
    | none => .err (.missingDefinition ty.2.1 m.pathToString)
    | some d =>
      match d.kind with
      | .struct g | .enum g => if g ≠ ty.2.2.length then .err (.genericsCount g ty.2.2.length) else .ok
      | .alias | .const => .err (.invalidKind d.kind.asStr)

/-- `ResolvedImport`, mod.rs:123-130. -/
inductive ResolvedImport where
  | module (m : Module)
  | type (name : String) (generics : Nat)

/-- `Module::resolve_import`, mod.rs:178-230. -/
def resolveImport (m : Module) (i : Import) : Except ImportError ResolvedImport :=
  match (if i.segments.length < 2 then .ok m else walk m (i.segments.drop 1)) with
  | .error (n, p) => .error (.missingModule n p)
  | .ok m =>
    match i.element with
    | none => .ok (.module m)
    | some element =>
      match findDecl m element with
      | none => .error (.missingDefinition element m.pathToString)
      | some d =>
        match d.kind with
        | .alias => .error (.invalidKind "alias")
        | .const => .error (.invalidKind "const")
        | .struct g | .enum g => .ok (.type d.name g)

/-- `Module::resolve_remote`, mod.rs:232-314. -/
def resolveRemote (m : Module) (ty : Ext) : Outcome RemoteError :=
  match (if ty.1.head? = some m.name then .ok m else walk m ty.1) with
  | .error (n, p) => .err (.missingModule n p)
  | .ok m =>
    match findDecl m ty.2.1 with
    | none => .err (.missingDefinition ty.2.1 m.pathToString)
    | some d =>
      match d.kind with
      | .struct g | .enum g => if g ≠ ty.2.2.length then .err (.genericsCount ty.2.2.length g) else .ok
      | .alias => .err (.invalidKind "type alias")
      | .const => .err (.invalidKind "constant")

/-- `LocallyMissingType`, mod.rs:317-320. -/
abbrev Missing := Ext × LocalError

/-- `is_generic`, mod.rs:326-332. -/
def isGeneric (ty : Ext) (generics : List String) : Bool := ty.2.2.isEmpty && ty.1.isEmpty && generics.contains ty.2.1

/-- `resolve`, mod.rs:334-347: the references of a type that are not found in the module. `visit_externals`
(mod.rs:457-504) is the same function as the one of generics.rs. -/
def resolveTy (m : Module) (generics : List String) (t : DataType) : List Missing :=
  (visitExternals t).filterMap fun ty =>
    if isGeneric ty generics then none
    else match resolveLocal m ty with
      | .err e => some (ty, e)
      | _ => none

/-- `resolve_fields`, mod.rs:349-368. -/
def resolveFields (m : Module) (generics : List String) (fs : Fields) : List Missing :=
  (fieldTypes fs).flatMap (resolveTy m generics)

/-- First loop of `resolve_module_types`, mod.rs:370-382. -/
def resolveDef (m : Module) : Definition → List Missing
  | .struct s => resolveFields m s.generics s.fields
  | .enum e => e.variants.flatMap fun v => resolveFields m e.generics v.fields
  | _ => []

/-- The order in which a hash map yields its entries: any function that permutes. -/
abbrev Order := List (String × List Missing) → List (String × List Missing)

mutual
/-- `resolve_module_types`, mod.rs:322-387. -/
def resolveModuleTypes (order : Order) : Module → List Missing
  | .mk n p i t ms ds =>
    ds.flatMap (resolveDef (.mk n p i t ms ds)) ++ (order (resolveModules order ms)).flatMap (·.2)
/-- Second loop, mod.rs:384-386: the entries of the map of submodules. -/
def resolveModules (order : Order) : List Module → List (String × List Missing)
  | [] => []
  | m :: ms => (m.name, resolveModuleTypes order m) :: resolveModules order ms
end

/-- Body of the closure in `resolve_module_imports`, mod.rs:512-524; the outer `none` is the panic of `segments[0]`
on an import without segments (which the parser does not produce). -/
def resolveOneImport (schemas : List (String × Module)) (i : Import) : Option (Except ImportError ResolvedImport) :=
  match i.segments with
  | [] => none
  | root :: _ =>
    match schemas.find? (fun s => s.1 == root) with
    | none => some (.error (.missingSchema root))
    | some s => some (resolveImport s.2 i)

/-- `collect::<Result<Vec<_>, _>>()` over the imports, mod.rs:506-526. -/
def resolveImports (schemas : List (String × Module)) : List Import → Option (Except ImportError (List ResolvedImport))
  | [] => some (.ok [])
  | i :: is =>
    match resolveOneImport schemas i with
    | none => none
    | some (.error e) => some (.error e)
    | some (.ok r) =>
      match resolveImports schemas is with
      | some (.ok rs) => some (.ok (r :: rs))
      | o => o

/-- The first imported module of a name, mod.rs:535-538. -/
def importedModule (imports : List ResolvedImport) (name : String) : Option Module :=
  imports.findSome? fun
    | .module m => if m.name = name then some m else none
    | .type _ _ => none

/-- The first imported type of a name, mod.rs:562-569. -/
def importedType (imports : List ResolvedImport) (name : String) : Option Nat :=
  imports.findSome? fun
    | .module _ => none
    | .type n g => if n = name then some g else none

/-- `resolve_type_remotely`, mod.rs:528-602. -/
def resolveTypeRemotely (imports : List ResolvedImport) (miss : Missing) : Outcome ResolveError :=
  if imports.isEmpty then .err (.loc miss.2)
  else
    match miss.1.1 with
    | name :: _ =>
      match importedModule imports name with
      | some m => ((resolveRemote m miss.1).mapErr .remote).andThen (.err (.loc miss.2))
      | none => .err (.remote (.missingImport miss.1.1 miss.1.2.1))
    | [] =>
      match importedType imports miss.1.2.1 with
      | some g =>
        if g = miss.1.2.2.length then .ok else .err (.remote (.genericsCount miss.1.2.2.length g))
      | none => .err (.remote (.missingImport [] miss.1.2.1))

/-- Body of the loop of `schemas`, mod.rs:39-70. -/
def resolveOne (order : Order) (modules : List (String × Module)) (m : Module) : Outcome ResolveError :=
  match resolveImports modules m.imports with
  | none => .panic
  | some (.error e) => .err (.imp e)
  | some (.ok imports) => tryForEach (resolveTypeRemotely imports) (resolveModuleTypes order m)

/-- `schemas` (exported as `resolve_schemas`), mod.rs:33-73. -/
def resolveSchemas (order : Order) (values : List (String × Ast.Schema)) : Outcome ResolveError :=
  let modules := values.map fun v => (v.1, resolveTypes v.1 v.2)
  tryForEach (fun m => resolveOne order modules m.2) modules

/-- The error of the same loop together with the schema it is about (`Error::source_code`, mod.rs:47-55 and 59-67). -/
def reportFrom (order : Order) (modules : List (String × Module)) : List (String × Module) → Option (String × ResolveError)
  | [] => none
  | m :: ms =>
    match resolveOne order modules m.2 with
    | .ok => reportFrom order modules ms
    | .err e => some (m.1, e)
    | .panic => none

/-- The error that `schemas` returns, mod.rs:33-73. -/
def resolveReport (order : Order) (values : List (String × Ast.Schema)) : Option (String × ResolveError) :=
  let modules := values.map fun v => (v.1, resolveTypes v.1 v.2)
  reportFrom order modules modules

end Mabo.Resolve
