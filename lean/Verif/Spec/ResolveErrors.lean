import Verif.Spec.Resolve
import Verif.Compiler.Resolve
/-!
What the errors of the resolver say, as statements about the schemas: for each error, when it is true of an import or of a
reference. Only the error values themselves are taken from the model.
-/
namespace Mabo.Spec
open Mabo.Ast Mabo.Resolve

/-- A struct, enum, alias or constant has this name. -/
inductive HasItem (ds : List Definition) (name : String) : Prop where
  | type {n : Nat} : Declares ds name n → HasItem ds name
  | alias (a : TypeAlias) : Definition.typeAlias a ∈ ds → a.name = name → HasItem ds name
  | const (c : Const) : Definition.const c ∈ ds → c.name = name → HasItem ds name

/-- An alias or constant has this name; `kind` is the word for it, given the words for both. -/
inductive NotAType (ds : List Definition) (name : String) (alias const : String) : String → Prop where
  | alias (a : TypeAlias) : Definition.typeAlias a ∈ ds → a.name = name → NotAType ds name alias const alias
  | const (c : Const) : Definition.const c ∈ ds → c.name = name → NotAType ds name alias const const

/-- The modules of the path exist up to `pre`, where there is none called `n`. -/
def StopsAt (ds : List Definition) (path : List String) (n : String) (pre : List String) : Prop :=
  ∃ rest out, path = pre ++ n :: rest ∧ ScopeAt ds pre out ∧ ∀ c inner, Definition.module c n inner ∉ out

/-- What is wrong with an import. -/
inductive ImportProblem (values : List (String × Ast.Schema)) (i : Import) : ImportError → Prop where
  | schema {root : String} {rest : List String} : i.segments = root :: rest → (∀ s, (root, s) ∉ values) →
      ImportProblem values i (.missingSchema root)
  | module {root n : String} {rest pre : List String} {s : Ast.Schema} : i.segments = root :: rest → (root, s) ∈ values →
      StopsAt s.definitions rest n pre → ImportProblem values i (.missingModule n (root :: pre))
  | definition {root name : String} {path : List String} {s : Ast.Schema} {out : List Definition} :
      i = ⟨root :: path, some name⟩ → (root, s) ∈ values → ScopeAt s.definitions path out → ¬ HasItem out name →
      ImportProblem values i (.missingDefinition name (root :: path))
  | kind {root name k : String} {path : List String} {s : Ast.Schema} {out : List Definition} :
      i = ⟨root :: path, some name⟩ → (root, s) ∈ values → ScopeAt s.definitions path out →
      NotAType out name "alias" "const" k → ImportProblem values i (.invalidKind k)

/-- The schema imports, by its last name `x`, the module `root::path` of another schema, with these definitions. -/
inductive ImportsModule (values : List (String × Ast.Schema)) (s : Ast.Schema) (x root : String) (path : List String)
    (out : List Definition) : Prop where
  | mk {s' : Ast.Schema} : Definition.import ⟨root :: path, none⟩ ∈ s.definitions → (root :: path).getLast? = some x →
      (root, s') ∈ values → ScopeAt s'.definitions path out → ImportsModule values s x root path out

/-- What is wrong with the reference `path::name<args>` in the module `mods`, whose definitions are `scope`, of the schema `s`,
which is called `stem`. The last three are about references through an imported module: of the path only its first name counts. -/
inductive RefProblem (values : List (String × Ast.Schema)) (stem : String) (s : Ast.Schema) (mods : List String)
    (scope : List Definition) (path : List String) (name : String) (args : List DataType) : ResolveError → Prop where
  | module {n : String} {pre : List String} : StopsAt scope path n pre →
      RefProblem values stem s mods scope path name args (.loc (.missingModule n (stem :: mods ++ pre)))
  | definition {out : List Definition} : ScopeAt scope path out → ¬ HasItem out name →
      RefProblem values stem s mods scope path name args (.loc (.missingDefinition name (stem :: mods ++ path)))
  | count {out : List Definition} {g : Nat} : ScopeAt scope path out → Declares out name g → g ≠ args.length →
      RefProblem values stem s mods scope path name args (.loc (.genericsCount g args.length))
  | kind {out : List Definition} {k : String} : ScopeAt scope path out → NotAType out name "type alias" "constant" k →
      RefProblem values stem s mods scope path name args (.loc (.invalidKind k))
  | noImport : path = [] → (∀ segs, Definition.import ⟨segs, some name⟩ ∉ s.definitions) →
      RefProblem values stem s mods scope path name args (.remote (.missingImport [] name))
  | noModuleImport {x : String} {rest : List String} : path = x :: rest →
      (∀ root p out, ¬ ImportsModule values s x root p out) →
      RefProblem values stem s mods scope path name args (.remote (.missingImport path name))
  | importedCount {root : String} {p : List String} {s' : Ast.Schema} {out : List Definition} {g : Nat} : path = [] →
      Definition.import ⟨root :: p, some name⟩ ∈ s.definitions → (root, s') ∈ values → ScopeAt s'.definitions p out →
      Declares out name g → g ≠ args.length →
      RefProblem values stem s mods scope path name args (.remote (.genericsCount args.length g))
  | remoteDefinition {x root : String} {rest p : List String} {out : List Definition} : path = x :: rest →
      ImportsModule values s x root p out → ¬ HasItem out name →
      RefProblem values stem s mods scope path name args (.remote (.missingDefinition name (root :: p)))
  | remoteCount {x root : String} {rest p : List String} {out : List Definition} {g : Nat} : path = x :: rest →
      ImportsModule values s x root p out → Declares out name g → g ≠ args.length →
      RefProblem values stem s mods scope path name args (.remote (.genericsCount args.length g))
  | remoteKind {x root k : String} {rest p : List String} {out : List Definition} : path = x :: rest →
      ImportsModule values s x root p out → NotAType out name "type alias" "constant" k →
      RefProblem values stem s mods scope path name args (.remote (.invalidKind k))

/-- The error is about an import of the schema, or about a type that one of its fields mentions and that has no meaning by the
rules of `Resolves`; and what it says is the case. -/
inductive Explains (values : List (String × Ast.Schema)) (stem : String) (s : Ast.Schema) : ResolveError → Prop where
  | imp {i : Import} {e : ImportError} : Definition.import i ∈ s.definitions → ImportProblem values i e →
      Explains values stem s (.imp e)
  | ref {mods : List String} {scope : List Definition} {d : Definition} {path : List String} {name : String}
      {args : List DataType} {e : ResolveError} : ScopeAt s.definitions mods scope → d ∈ scope →
      Mentioned d path name args → ¬ Resolves values s scope d path name args →
      RefProblem values stem s mods scope path name args e → Explains values stem s e

end Mabo.Spec
