import Verif.Compiler.ResolveLabels
import Verif.Compiler.ResolveErrors
/-! Without labels, the resolver of `Compiler/ResolveLabels.lean` is the one of `Compiler/Resolve.lean`. -/
namespace Mabo.Labels
open Mabo.Parse (Text)
open Mabo.Compiler (Outcome tryForEach)

/-- Without spans. -/
def Import.erase (i : Import) : Ast.Import := ⟨i.segments.map (·.value), i.element.map (·.value)⟩
/-- Without spans. -/
def Ext.erase (e : Ext) : Resolve.Ext := (e.path.map (·.value), e.name.value, e.args.map Spanned.Ty.erase)
/-- Without spans. -/
def Declaration.erase (d : Declaration) : Resolve.Declaration := ⟨d.kind, d.name.value⟩

mutual
/-- Without spans and back references. -/
def Module.erase : Module → Resolve.Module
  | .mk n _ p i t ms ds => .mk n p (i.map Import.erase) (t.map Declaration.erase) (eraseModules ms) (ds.map Spanned.Definition.erase)
/-- For all of them. -/
def eraseModules : List Module → List Resolve.Module
  | [] => []
  | m :: ms => m.erase :: eraseModules ms
end

theorem eraseModules_eq : ∀ ms : List Module, eraseModules ms = ms.map Module.erase
  | [] => by simp only [eraseModules, List.map_nil]
  | m :: ms => by simp only [eraseModules, List.map_cons, eraseModules_eq ms]

/-- Without labels. -/
def LocalError.erase : LocalError → Resolve.LocalError
  | .missingModule n p _ => .missingModule n p
  | .missingDefinition n p _ => .missingDefinition n p
  | .genericsCount d u _ _ => .genericsCount d u
  | .invalidKind k _ _ => .invalidKind k
/-- Without labels. -/
def ImportError.erase : ImportError → Resolve.ImportError
  | .missingSchema n _ => .missingSchema n
  | .missingModule n p _ => .missingModule n p
  | .missingDefinition n p _ => .missingDefinition n p
  | .invalidKind k _ _ => .invalidKind k
/-- Without labels. -/
def RemoteError.erase : RemoteError → Resolve.RemoteError
  | .missingModule n p _ => .missingModule n p
  | .missingDefinition n p _ => .missingDefinition n p
  | .genericsCount a _ d _ _ => .genericsCount a d
  | .invalidKind k _ _ _ => .invalidKind k
  | .missingImport p n _ => .missingImport p n
/-- Without labels. -/
def ResolveError.erase : ResolveError → Resolve.ResolveError
  | .loc e => .loc e.erase
  | .imp e => .imp e.erase
  | .remote e => .remote e.erase
/-- Without spans. -/
def ResolvedImport.erase : ResolvedImport → Resolve.ResolvedImport
  | .module m => .module m.erase
  | .type _ n g => .type n.value g
/-- Without spans. -/
def Missing.erase (x : Missing) : Resolve.Missing := (x.1.erase, x.2.erase)

theorem erase_name (m : Module) : m.erase.name = m.name := by cases m; simp only [Module.erase]; rfl
theorem erase_path (m : Module) : m.erase.pathToString = m.path := by cases m; simp only [Module.erase]; rfl
theorem erase_modules (m : Module) : m.erase.modules = m.modules.map Module.erase := by
  cases m; simp only [Module.erase, eraseModules_eq]; rfl
theorem erase_types (m : Module) : m.erase.types = m.types.map Declaration.erase := by cases m; simp only [Module.erase]; rfl
theorem erase_imports (m : Module) : m.erase.imports = m.imports.map Import.erase := by cases m; simp only [Module.erase]; rfl
theorem erase_definitions (m : Module) : m.erase.definitions = m.definitions.map Spanned.Definition.erase := by
  cases m; simp only [Module.erase]; rfl

theorem insertModule_erase (m : Module) : ∀ ms : List Module,
    (insertModule m ms).map Module.erase = Resolve.insertModule m.erase (ms.map Module.erase)
  | [] => rfl
  | m' :: ms => by
    simp only [insertModule, Resolve.insertModule, List.map_cons, erase_name]
    split
    · rfl
    · simp only [List.map_cons, insertModule_erase m ms]

theorem foldl_insert_erase : ∀ (ms acc : List Module),
    (ms.foldl (fun acc m => insertModule m acc) acc).map Module.erase =
      (ms.map Module.erase).foldl (fun acc m => Resolve.insertModule m acc) (acc.map Module.erase)
  | [], _ => rfl
  | m :: ms, acc => by
    simp only [List.foldl_cons, List.map_cons]
    rw [foldl_insert_erase ms, insertModule_erase]

theorem toModuleMap_erase (ms : List Module) : (toModuleMap ms).map Module.erase = Resolve.toModuleMap (ms.map Module.erase) :=
  foldl_insert_erase ms []

theorem importIn_erase (source : Text) (i : Spanned.Import) : (importIn source i).erase = i.erase := by
  cases i with
  | mk k segs el sc =>
    simp only [importIn, Import.erase, Spanned.Import.erase, List.map_map, Option.map_map]
    rfl

theorem importsOf_erase (source : Text) : ∀ ds : List Spanned.Definition,
    (importsOf source ds).map Import.erase = Resolve.importsOf (ds.map Spanned.Definition.erase)
  | [] => rfl
  | d :: ds => by
    have ih := importsOf_erase source ds
    cases d <;> simp only [importsOf, List.map_cons, Spanned.Definition.erase, Resolve.importsOf, ih, importIn_erase]

theorem paramCount_erase (g : Option (Spanned.Delimited (Spanned.Punctuated Spanned.Name))) :
    paramCount g = (Spanned.eraseGenerics g).1.length := by
  cases g <;> simp [paramCount, Spanned.eraseGenerics, Spanned.Punctuated.erase]

theorem paramNames_erase (g : Option (Spanned.Delimited (Spanned.Punctuated Spanned.Name))) :
    paramNames g = (Spanned.eraseGenerics g).1 := by
  cases g <;> simp [paramNames, Spanned.eraseGenerics, Spanned.Punctuated.erase]

theorem typesOf_erase (source : Text) : ∀ ds : List Spanned.Definition,
    (typesOf source ds).map Declaration.erase = Resolve.typesOf (ds.map Spanned.Definition.erase)
  | [] => rfl
  | d :: ds => by
    have ih := typesOf_erase source ds
    cases d <;> simp only [typesOf, List.map_cons, Spanned.Definition.erase, Resolve.typesOf, ih, Declaration.erase, nameIn,
      Spanned.Struct.erase, Spanned.Enum.erase, Spanned.TypeAlias.erase, Spanned.Const.erase, paramCount_erase]

mutual
theorem moduleTree_erase (f : File) : ∀ (d : Spanned.Definition) (p : List String),
    (moduleTree f p d).map Module.erase = Resolve.moduleTree p d.erase
  | .module c k n o ds cl, p => by
    simp only [moduleTree, List.map_cons, List.map_nil, Module.erase, Spanned.Definition.erase, Resolve.moduleTree,
      importsOf_erase, typesOf_erase, eraseModules_eq, toModuleMap_erase, moduleTrees_erase f ds]
  | .struct _, p => by simp only [moduleTree, Spanned.Definition.erase, Resolve.moduleTree, List.map_nil]
  | .enum _, p => by simp only [moduleTree, Spanned.Definition.erase, Resolve.moduleTree, List.map_nil]
  | .typeAlias _, p => by simp only [moduleTree, Spanned.Definition.erase, Resolve.moduleTree, List.map_nil]
  | .const _, p => by simp only [moduleTree, Spanned.Definition.erase, Resolve.moduleTree, List.map_nil]
  | .import _, p => by simp only [moduleTree, Spanned.Definition.erase, Resolve.moduleTree, List.map_nil]
theorem moduleTrees_erase (f : File) : ∀ (ds : List Spanned.Definition) (p : List String),
    (moduleTrees f p ds).map Module.erase = Resolve.moduleTrees p (ds.map Spanned.Definition.erase)
  | [], p => by simp only [moduleTrees, List.map_nil, Resolve.moduleTrees]
  | d :: ds, p => by
    simp only [moduleTrees, List.map_append, List.map_cons, Resolve.moduleTrees, moduleTree_erase f d p, moduleTrees_erase f ds p]
end

/-- The located module tree of these definitions. -/
def ltree (n : String) (f : File) (p : List String) (ds : List Spanned.Definition) : Module :=
  .mk n f p (importsOf f.source ds) (typesOf f.source ds) (toModuleMap (moduleTrees f p ds)) ds

theorem ltree_erase (n : String) (f : File) (p : List String) (ds : List Spanned.Definition) :
    (ltree n f p ds).erase = Resolve.tree n p (ds.map Spanned.Definition.erase) := by
  simp only [ltree, Module.erase, importsOf_erase, typesOf_erase, eraseModules_eq, toModuleMap_erase, moduleTrees_erase]
  rfl

theorem resolveTypes_eq (n : String) (f : File) : resolveTypes n f = ltree n f [n] f.schema.definitions := rfl

theorem resolveTypes_erase (n : String) (f : File) : (resolveTypes n f).erase = Resolve.resolveTypes n f.schema.erase := by
  rw [resolveTypes_eq, ltree_erase]
  rfl

theorem getModule_erase (name : String) : ∀ ms : List Module,
    (getModule ms name).map Module.erase = Resolve.getModule (ms.map Module.erase) name
  | [] => rfl
  | m :: ms => by
    have ih := getModule_erase name ms
    simp only [getModule, Resolve.getModule, List.map_cons, List.find?_cons, erase_name] at ih ⊢
    cases m.name == name
    · exact ih
    · rfl

/-- Change both sides. -/
def mapBoth {ε ε' α β : Type} (f : ε → ε') (g : α → β) : Except ε α → Except ε' β
  | .error e => .error (f e)
  | .ok a => .ok (g a)

theorem walk_erase : ∀ (path : List Name) (m : Module),
    mapBoth (fun x : Name × List String => (x.1.value, x.2)) Module.erase (walk m path) = Resolve.walk m.erase (path.map (·.value))
  | [], m => rfl
  | n :: ns, m => by
    rw [walk, List.map_cons, Resolve.walk, erase_modules, ← getModule_erase]
    cases getModule m.modules n.value with
    | none => simp only [Option.map_none, mapBoth, erase_path]
    | some m' => exact walk_erase ns m'

theorem findDecl_erase (m : Module) (name : String) : (findDecl m name).map Declaration.erase = Resolve.findDecl m.erase name := by
  simp only [findDecl, Resolve.findDecl, erase_types, List.find?_map]
  rfl

theorem mapErr_ite {ε ε' : Type} (h : ε → ε') (c : Prop) [Decidable c] (e : ε) :
    Outcome.mapErr h (if c then .err e else .ok) = if c then .err (h e) else .ok := by
  by_cases hc : c
  · rw [if_pos hc, if_pos hc]; rfl
  · rw [if_neg hc, if_neg hc]; rfl

theorem resolveLocal_erase (m : Module) (ty : Ext) :
    (resolveLocal m ty).mapErr LocalError.erase = Resolve.resolveLocal m.erase ty.erase := by
  have hw := walk_erase ty.path m
  unfold resolveLocal Resolve.resolveLocal
  simp only [Ext.erase]
  rw [← hw]
  cases walk m ty.path with
  | error x => rfl
  | ok m' =>
    have hf := findDecl_erase m' ty.name.value
    simp only [mapBoth]
    rw [← hf, erase_path]
    cases findDecl m' ty.name.value with
    | none => rfl
    | some d =>
      simp only [Option.map_some, Declaration.erase, List.length_map]
      cases d.kind with
      | struct g => exact mapErr_ite _ _ _
      | enum g => exact mapErr_ite _ _ _
      | alias => rfl
      | const => rfl

theorem resolveImport_erase (m : Module) (i : Import) :
    mapBoth ImportError.erase ResolvedImport.erase (resolveImport m i) = Resolve.resolveImport m.erase i.erase := by
  have hw : mapBoth (fun x : Name × List String => (x.1.value, x.2)) Module.erase
      (if i.segments.length < 2 then .ok m else walk m (i.segments.drop 1)) =
      (if i.erase.segments.length < 2 then .ok m.erase else Resolve.walk m.erase (i.erase.segments.drop 1)) := by
    simp only [Import.erase, List.length_map]
    split
    · rfl
    · rw [← List.map_drop]; exact walk_erase _ m
  unfold resolveImport Resolve.resolveImport
  rw [← hw]
  cases (if i.segments.length < 2 then .ok m else walk m (i.segments.drop 1) : Except (Name × List String) Module) with
  | error x => rfl
  | ok m' =>
    simp only [mapBoth, Import.erase]
    cases i.element with
    | none => rfl
    | some el =>
      have hf := findDecl_erase m' el.value
      simp only [Option.map_some]
      rw [← hf, erase_path]
      cases findDecl m' el.value with
      | none => rfl
      | some d =>
        simp only [Option.map_some, Declaration.erase]
        cases d.kind <;> rfl

theorem resolveRemote_erase (m : Module) (ty : Ext) :
    (resolveRemote m ty).mapErr RemoteError.erase = Resolve.resolveRemote m.erase ty.erase := by
  have hw : mapBoth (fun x : Name × List String => (x.1.value, x.2)) Module.erase
      (if ty.path.head?.map (·.value) = some m.name then .ok m else walk m ty.path) =
      (if ty.erase.1.head? = some m.erase.name then .ok m.erase else Resolve.walk m.erase ty.erase.1) := by
    simp only [Ext.erase, List.head?_map, erase_name]
    split
    · rfl
    · exact walk_erase _ m
  unfold resolveRemote Resolve.resolveRemote
  rw [← hw]
  cases (if ty.path.head?.map (·.value) = some m.name then .ok m else walk m ty.path : Except (Name × List String) Module) with
  | error x => rfl
  | ok m' =>
    have hf := findDecl_erase m' ty.name.value
    simp only [mapBoth, Ext.erase]
    rw [← hf, erase_path]
    cases findDecl m' ty.name.value with
    | none => rfl
    | some d =>
      simp only [Option.map_some, Declaration.erase, List.length_map]
      cases d.kind with
      | struct g => exact mapErr_ite _ _ _
      | enum g => exact mapErr_ite _ _ _
      | alias => rfl
      | const => rfl

theorem externalsList_eq (source : Text) : ∀ ts : List Spanned.Ty, externalsList source ts = ts.flatMap (externals source)
  | [] => by simp only [externalsList, List.flatMap_nil]
  | t :: ts => by simp only [externalsList, List.flatMap_cons, externalsList_eq source ts]

mutual
theorem externals_erase (source : Text) : ∀ t : Spanned.Ty,
    (externals source t).map Ext.erase = Compiler.visitExternals t.erase
  | .prim _ _ => by simp only [externals, Spanned.Ty.erase, Compiler.visitExternals, List.map_nil]
  | .single k _ _ t _ => by
    have ih := externals_erase source t
    cases k <;> simp only [externals, Spanned.Ty.erase, Spanned.Single.erase, Compiler.visitExternals, List.map_nil, ih]
  | .hashMap _ _ k _ v _ => by
    simp only [externals, Spanned.Ty.erase, Compiler.visitExternals, List.map_append, externals_erase source k,
      externals_erase source v]
  | .tuple _ ts _ _ _ => by simp only [externals, Spanned.Ty.erase, Compiler.visitExternals, externalsList_erase source ts]
  | .array _ t _ _ _ => by simp only [externals, Spanned.Ty.erase, Compiler.visitExternals, externals_erase source t]
  | .external path name _ args _ _ => by
    simp only [externals, Spanned.Ty.erase, Compiler.visitExternals, List.map_cons, externalsList_erase source args, Ext.erase,
      List.map_map]
    rfl
theorem externalsList_erase (source : Text) : ∀ ts : List Spanned.Ty,
    (externalsList source ts).map Ext.erase = Compiler.visitExternalsList (ts.map Spanned.Ty.erase)
  | [] => by simp only [externalsList, List.map_nil, Compiler.visitExternalsList]
  | t :: ts => by
    simp only [externalsList, List.map_append, List.map_cons, Compiler.visitExternalsList, externals_erase source t,
      externalsList_erase source ts]
end

theorem isGeneric_erase (ty : Ext) (gs : List String) : Resolve.isGeneric ty.erase gs = isGeneric ty gs := by
  simp only [Resolve.isGeneric, isGeneric, Ext.erase, List.isEmpty_map]

theorem resolveTy_erase (m : Module) (gs : List String) (t : Spanned.Ty) :
    (resolveTy m gs t).map Missing.erase = Resolve.resolveTy m.erase gs t.erase := by
  simp only [resolveTy, Resolve.resolveTy]
  rw [← externals_erase m.schema.source, List.filterMap_map, List.map_filterMap]
  congr 1
  funext ty
  simp only [Function.comp_apply, isGeneric_erase]
  cases isGeneric ty gs with
  | true => rfl
  | false =>
    rw [← resolveLocal_erase]
    cases resolveLocal m ty <;> rfl

theorem fieldTypes_erase (fs : Spanned.Fields) : (fieldTypes fs).map Spanned.Ty.erase = Compiler.fieldTypes fs.erase := by
  cases fs <;> simp only [fieldTypes, Spanned.Fields.erase, Compiler.fieldTypes, List.map_map, List.map_nil] <;> rfl

theorem resolveFields_erase (m : Module) (gs : List String) (fs : Spanned.Fields) :
    (resolveFields m gs fs).map Missing.erase = Resolve.resolveFields m.erase gs fs.erase := by
  simp only [resolveFields, Resolve.resolveFields]
  rw [← fieldTypes_erase, List.flatMap_map, List.map_flatMap]
  congr 1
  funext t
  exact resolveTy_erase m gs t

theorem resolveDef_erase (m : Module) (d : Spanned.Definition) :
    (resolveDef m d).map Missing.erase = Resolve.resolveDef m.erase d.erase := by
  cases d with
  | struct s =>
    simp only [resolveDef, Spanned.Definition.erase, Resolve.resolveDef, Spanned.Struct.erase, resolveFields_erase, paramNames_erase]
  | enum e =>
    simp only [resolveDef, Spanned.Definition.erase, Resolve.resolveDef, Spanned.Enum.erase, Spanned.Punctuated.erase,
      List.flatMap_map, List.map_flatMap, resolveFields_erase, paramNames_erase]
    rfl
  | _ => simp only [resolveDef, Spanned.Definition.erase, Resolve.resolveDef, List.map_nil]

/-- The order for the other resolver. -/
def Order.toOrder (o : Order) : Resolve.Order := o.apply

theorem Order.isOrder (o : Order) : Resolve.IsOrder o.toOrder := fun l => o.perm l

mutual
theorem moduleTypes_erase (o : Order) : ∀ m : Module,
    (resolveModuleTypes o m).map Missing.erase = Resolve.resolveModuleTypes o.toOrder m.erase
  | .mk n f p i t ms ds => by
    have h1 := fun d => resolveDef_erase (.mk n f p i t ms ds) d
    have h2 := modules_erase o ms
    simp only [resolveModuleTypes, List.map_append, List.map_flatMap, h1]
    simp only [Module.erase, Resolve.resolveModuleTypes, List.flatMap_map]
    congr 1
    rw [← h2]
    have := o.values (fun l : List Missing => l.map Missing.erase) (resolveModules o ms)
    simp only [Order.toOrder]
    rw [this, List.flatMap_map]
theorem modules_erase (o : Order) : ∀ ms : List Module,
    (resolveModules o ms).map (fun x => (x.1, x.2.map Missing.erase)) = Resolve.resolveModules o.toOrder (eraseModules ms)
  | [] => by simp only [resolveModules, List.map_nil, eraseModules, Resolve.resolveModules]
  | m :: ms => by
    simp only [resolveModules, List.map_cons, eraseModules, Resolve.resolveModules, moduleTypes_erase o m, modules_erase o ms,
      erase_name]
end

/-- The modules without spans. -/
def eraseAll (ms : List (String × Module)) : List (String × Resolve.Module) := ms.map fun x => (x.1, x.2.erase)

theorem oneImport_erase (ms : List (String × Module)) (i : Import) :
    (resolveOneImport ms i).map (mapBoth ImportError.erase ResolvedImport.erase) =
      Resolve.resolveOneImport (eraseAll ms) i.erase := by
  obtain ⟨segs, el⟩ := i
  cases segs with
  | nil => rfl
  | cons root rest =>
    have hr := fun m => resolveImport_erase m ⟨root :: rest, el⟩
    simp only [resolveOneImport, Resolve.resolveOneImport, Import.erase, List.map_cons, eraseAll, List.find?_map]
    have e : ((fun s : String × Resolve.Module => s.1 == root.value) ∘ fun x : String × Module => (x.1, x.2.erase)) =
        fun s => s.1 == root.value := rfl
    rw [e]
    cases ms.find? (fun s => s.1 == root.value) with
    | none => rfl
    | some s =>
      simp only [Option.map_some, hr]
      rfl

theorem imports_erase (ms : List (String × Module)) : ∀ is : List Import,
    (resolveImports ms is).map (mapBoth ImportError.erase (List.map ResolvedImport.erase)) =
      Resolve.resolveImports (eraseAll ms) (is.map Import.erase)
  | [] => rfl
  | i :: is => by
    have ih := imports_erase ms is
    rw [resolveImports, List.map_cons, Resolve.resolveImports, ← oneImport_erase, ← ih]
    cases resolveOneImport ms i with
    | none => rfl
    | some x =>
      cases x with
      | error e => rfl
      | ok r =>
        cases resolveImports ms is with
        | none => rfl
        | some y => cases y <;> rfl

theorem importedModule_erase (name : String) : ∀ rs : List ResolvedImport,
    (importedModule rs name).map Module.erase = Resolve.importedModule (rs.map ResolvedImport.erase) name
  | [] => rfl
  | r :: rs => by
    have ih := importedModule_erase name rs
    simp only [importedModule, Resolve.importedModule, List.map_cons, List.findSome?_cons] at ih ⊢
    cases r with
    | type f n g => exact ih
    | module m =>
      simp only [ResolvedImport.erase, erase_name]
      by_cases h : m.name = name
      · simp only [h, if_true]; rfl
      · simp only [h, if_false]; exact ih

theorem importedType_erase (name : String) : ∀ rs : List ResolvedImport,
    (importedType rs name).map (·.2.2) = Resolve.importedType (rs.map ResolvedImport.erase) name
  | [] => rfl
  | r :: rs => by
    have ih := importedType_erase name rs
    simp only [importedType, Resolve.importedType, List.map_cons, List.findSome?_cons] at ih ⊢
    cases r with
    | module m => exact ih
    | type f n g =>
      simp only [ResolvedImport.erase]
      by_cases h : n.value = name
      · simp only [h, if_true]; rfl
      · simp only [h, if_false]; exact ih

theorem remotely_erase (rs : List ResolvedImport) (x : Missing) :
    (resolveTypeRemotely rs x).mapErr ResolveError.erase =
      Resolve.resolveTypeRemotely (rs.map ResolvedImport.erase) (Missing.erase x) := by
  obtain ⟨⟨path, name, args⟩, le⟩ := x
  unfold resolveTypeRemotely Resolve.resolveTypeRemotely
  simp only [List.isEmpty_map, Missing.erase, Ext.erase]
  by_cases he : rs.isEmpty = true
  · rw [if_pos he, if_pos he]; rfl
  · rw [if_neg he, if_neg he]
    cases path with
    | cons y rest =>
      simp only [List.map_cons]
      rw [← importedModule_erase]
      cases importedModule rs y.value with
      | none => rfl
      | some m =>
        simp only [Option.map_some]
        have := resolveRemote_erase m ⟨y :: rest, name, args⟩
        simp only [Ext.erase, List.map_cons] at this
        rw [← this]
        cases resolveRemote m ⟨y :: rest, name, args⟩ <;> rfl
    | nil =>
      simp only [List.map_nil]
      rw [← importedType_erase]
      cases importedType rs name.value with
      | none => rfl
      | some v =>
        simp only [Option.map_some, List.length_map]
        by_cases hg : v.2.2 = args.length
        · rw [if_pos hg, if_pos hg]; rfl
        · rw [if_neg hg, if_neg hg]; rfl

theorem tryForEach_erase {α β ε ε' : Type} {f : α → Outcome ε} {g : β → Outcome ε'} {h : ε → ε'} {k : α → β}
    (hf : ∀ a, (f a).mapErr h = g (k a)) : ∀ l : List α, (tryForEach f l).mapErr h = tryForEach g (l.map k)
  | [] => rfl
  | a :: l => by
    rw [tryForEach, List.map_cons, tryForEach, ← hf a, ← tryForEach_erase hf l]
    cases f a <;> rfl

theorem resolveOne_erase (o : Order) (ms : List (String × Module)) (m : Module) :
    (resolveOne o ms m).mapErr ResolveError.erase = Resolve.resolveOne o.toOrder (eraseAll ms) m.erase := by
  rw [resolveOne, Resolve.resolveOne, erase_imports, ← imports_erase]
  cases resolveImports ms m.imports with
  | none => rfl
  | some x =>
    cases x with
    | error e => rfl
    | ok rs =>
      simp only [Option.map_some, mapBoth]
      rw [← moduleTypes_erase]
      exact tryForEach_erase (fun x => remotely_erase rs x) _

theorem modules_of (values : List (String × File)) :
    eraseAll (values.map fun v => (v.1, resolveTypes v.1 v.2)) =
      (values.map fun v => (v.1, v.2.schema.erase)).map fun v => (v.1, Resolve.resolveTypes v.1 v.2) := by
  simp only [eraseAll, List.map_map]
  refine List.map_congr_left fun v _ => ?_
  simp only [Function.comp_apply, resolveTypes_erase]

theorem schemasFrom_erase (o : Order) (ms : List (String × Module)) : ∀ l : List (String × Module),
    (schemasFrom o ms l).mapErr (fun e => e.cause.erase) =
      tryForEach (fun m => Resolve.resolveOne o.toOrder (eraseAll ms) m.2) (eraseAll l)
  | [] => rfl
  | m :: l => by
    have ih := schemasFrom_erase o ms l
    simp only [eraseAll, List.map_cons] at ih ⊢
    rw [schemasFrom, tryForEach, ← ih]
    have := resolveOne_erase o ms m.2
    simp only [eraseAll] at this
    simp only
    rw [← this]
    cases resolveOne o ms m.2 <;> rfl

/-- The same errors. -/
theorem schemas_erase (o : Order) (values : List (String × File)) :
    (schemas o values).mapErr (fun e => e.cause.erase) =
      Resolve.resolveSchemas o.toOrder (values.map fun v => (v.1, v.2.schema.erase)) := by
  simp only [schemas, Resolve.resolveSchemas]
  rw [schemasFrom_erase, modules_of]

end Mabo.Labels
