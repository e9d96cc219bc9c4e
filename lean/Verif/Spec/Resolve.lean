import Verif.Spec.Compiler
/-!
When all type names of a set of schemas have a meaning, said without reference to the resolver.
-/
namespace Mabo.Spec
open Mabo.Ast

/-- Entering the modules named by a path, one after the other, leads from the definitions `ds` to the definitions
`out`. -/
inductive ScopeAt : List Definition → List String → List Definition → Prop where
  | here (ds : List Definition) : ScopeAt ds [] ds
  | enter {ds inner out : List Definition} {comment : List String} {name : String} {path : List String} :
      Definition.module comment name inner ∈ ds → ScopeAt inner path out → ScopeAt ds (name :: path) out

/-- The definitions contain a struct or enum of this name with `n` type parameters. -/
inductive Declares (ds : List Definition) (name : String) (n : Nat) : Prop where
  | struct (s : Struct) : Definition.struct s ∈ ds → s.name = name → s.generics.length = n → Declares ds name n
  | enum (e : Enum) : Definition.enum e ∈ ds → e.name = name → e.generics.length = n → Declares ds name n

/-- The definition mentions the type `path::name<args>` in one of its fields, outside `non_zero<..>`. -/
def Mentioned (d : Definition) (path : List String) (name : String) (args : List DataType) : Prop :=
  ∃ fs t tr, FieldsOf d fs ∧ TypeOf fs t ∧ Part (.external path name args tr) t

/-- An import names an existing schema, modules in it, and a struct or enum there (or just the module). -/
inductive ImportOk (values : List (String × Ast.Schema)) : Import → Prop where
  | type {schema name : String} {path : List String} {s : Ast.Schema} {out : List Definition} {n : Nat} :
      (schema, s) ∈ values → ScopeAt s.definitions path out → Declares out name n →
      ImportOk values ⟨schema :: path, some name⟩
  | module {schema : String} {path : List String} {s : Ast.Schema} {out : List Definition} :
      (schema, s) ∈ values → ScopeAt s.definitions path out → ImportOk values ⟨schema :: path, none⟩

/-- The type `path::name<args>`, used by the definition `d` in the scope `scope` of the schema `s`, is one of
* a type parameter of `d`;
* a struct or enum, of as many parameters as there are arguments, in the module `path` of the scope;
* such a struct or enum imported by name at the top level of the schema. -/
inductive Resolves (values : List (String × Ast.Schema)) (s : Ast.Schema) (scope : List Definition) (d : Definition) :
    List String → String → List DataType → Prop where
  | param {name : String} : name ∈ typeParams d → Resolves values s scope d [] name []
  | loc {path : List String} {name : String} {args : List DataType} {out : List Definition} :
      ScopeAt scope path out → Declares out name args.length → Resolves values s scope d path name args
  | imported {name schema : String} {args : List DataType} {path : List String} {s' : Ast.Schema}
      {out : List Definition} :
      Definition.import ⟨schema :: path, some name⟩ ∈ s.definitions → (schema, s') ∈ values →
      ScopeAt s'.definitions path out → Declares out name args.length → Resolves values s scope d [] name args

/-- Every type mentioned in a field anywhere in the schema has a meaning. -/
def TypesResolve (values : List (String × Ast.Schema)) (s : Ast.Schema) : Prop :=
  ∀ scope d path name args, Scope s scope → d ∈ scope → Mentioned d path name args →
    Resolves values s scope d path name args

/-- Every import at the top level of the schema is valid. -/
def ImportsOk (values : List (String × Ast.Schema)) (s : Ast.Schema) : Prop :=
  ∀ i, Definition.import i ∈ s.definitions → ImportOk values i

end Mabo.Spec
