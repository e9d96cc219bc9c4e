import Verif.Spec.Resolve
/-!
What the definitions of a project mean, said without reference to the compiler: the type a reference stands for, by the
absolute path of its declaration, and the fields of a definition.
-/
namespace Mabo.Spec
open Mabo

/-- `u` is part of `t`, also inside `non_zero<..>`. -/
inductive Anywhere (u : Ast.DataType) : Ast.DataType → Prop where
  | here : Anywhere u u
  | vec {t} : Anywhere u t → Anywhere u (.vec t)
  | hashMapKey {k v} : Anywhere u k → Anywhere u (.hashMap k v)
  | hashMapValue {k v} : Anywhere u v → Anywhere u (.hashMap k v)
  | hashSet {t} : Anywhere u t → Anywhere u (.hashSet t)
  | option {t} : Anywhere u t → Anywhere u (.option t)
  | nonZero {t} : Anywhere u t → Anywhere u (.nonZero t)
  | array {t n} : Anywhere u t → Anywhere u (.array t n)
  | tuple {t ts tr} : t ∈ ts → Anywhere u t → Anywhere u (.tuple ts tr)
  | argument {t path name args tr} : t ∈ args → Anywhere u t → Anywhere u (.external path name args tr)

/-- The definition refers to `path::name<args>` in one of its fields. -/
def Refers (d : Ast.Definition) (path : List String) (name : String) (args : List Ast.DataType) : Prop :=
  ∃ fs t tr, FieldsOf d fs ∧ TypeOf fs t ∧ Anywhere (.external path name args tr) t

/-- A place in a project: the definitions `scope` of the module `mods` of the schema `s`, which has the name `stem`. -/
structure Place (values : List (String × Ast.Schema)) (stem : String) (s : Ast.Schema) (mods : List String)
    (scope : List Ast.Definition) : Prop where
  schema : (stem, s) ∈ values
  scope : ScopeAt s.definitions mods scope

/-- The path of the type that `path::name` with `n` arguments stands for, in a definition with the type parameters `params`
at a place: a type in the module `path` seen from there, or, at the top level of a file, an imported type. -/
inductive Denotes (values : List (String × Ast.Schema)) (stem : String) (s : Ast.Schema) (mods : List String)
    (scope : List Ast.Definition) : List String → String → Nat → List String → Prop where
  | loc {path : List String} {name : String} {n : Nat} {out : List Ast.Definition} :
      ScopeAt scope path out → Declares out name n →
      Denotes values stem s mods scope path name n (stem :: mods ++ path ++ [name])
  | imported {name schema : String} {n : Nat} {path : List String} {s' : Ast.Schema} {out : List Ast.Definition} :
      mods = [] → Ast.Definition.import ⟨schema :: path, some name⟩ ∈ s.definitions → (schema, s') ∈ values →
      ScopeAt s'.definitions path out → Declares out name n →
      Denotes values stem s mods scope [] name n (schema :: path ++ [name])

mutual
/-- The type of generated code that a written type stands for; `ref` says what references mean, and type parameters, which
hide types of the same name, are numbered in order. -/
inductive TypeMeans (ref : List String → String → Nat → List String → Prop) (params : List String) :
    Ast.DataType → Schema.Ty → Prop where
  | prim (p) : TypeMeans ref params (.prim p) (.prim p)
  | vec {t u} : TypeMeans ref params t u → TypeMeans ref params (.vec t) (.vec u)
  | hashMap {k v k' v'} : TypeMeans ref params k k' → TypeMeans ref params v v' →
      TypeMeans ref params (.hashMap k v) (.hashMap k' v')
  | hashSet {t u} : TypeMeans ref params t u → TypeMeans ref params (.hashSet t) (.hashSet u)
  | option {t u} : TypeMeans ref params t u → TypeMeans ref params (.option t) (.option u)
  | nonZero {t u} : TypeMeans ref params t u → TypeMeans ref params (.nonZero t) (.nonZero u)
  | tuple {ts us tr} : TypesMean ref params ts us → TypeMeans ref params (.tuple ts tr) (.tuple us)
  | array {t u n} : TypeMeans ref params t u → TypeMeans ref params (.array t n) (.array u n.toNat)
  | param {name tr i} : params[i]? = some name → TypeMeans ref params (.external [] name [] tr) (.param i)
  | named {path name args us tr abs} : ¬ (path = [] ∧ name ∈ params) → ref path name args.length abs →
      TypesMean ref params args us → TypeMeans ref params (.external path name args tr) (.ext abs us)
/-- For all of them in order. -/
inductive TypesMean (ref : List String → String → Nat → List String → Prop) (params : List String) :
    List Ast.DataType → List Schema.Ty → Prop where
  | nil : TypesMean ref params [] []
  | cons {t u ts us} : TypeMeans ref params t u → TypesMean ref params ts us → TypesMean ref params (t :: ts) (u :: us)
end

/-- The fields: same order, names, numbers as in `Assigned`. -/
inductive FieldsMean (ref : List String → String → Nat → List String → Prop) (params : List String) :
    Ast.Fields → Schema.Fields → Prop where
  | named {fs tr} {gs : List Schema.Field} :
      gs.map (·.name) = fs.map (·.name) → TypesMean ref params (fs.map (·.ty)) (gs.map (·.ty)) →
      Assigned (fs.map (·.id)) (gs.map (·.id)) → FieldsMean ref params (.named fs tr) ⟨.named, gs⟩
  | unnamed {fs tr} {gs : List Schema.Field} :
      TypesMean ref params (fs.map (·.ty)) (gs.map (·.ty)) →
      Assigned (fs.map (·.id)) (gs.map (·.id)) → FieldsMean ref params (.unnamed fs tr) ⟨.unnamed, gs⟩
  | unit : FieldsMean ref params .unit ⟨.unit, []⟩

/-- For all of them in order. -/
inductive FieldListsMean (ref : List String → String → Nat → List String → Prop) (params : List String) :
    List Ast.Fields → List Schema.Fields → Prop where
  | nil : FieldListsMean ref params [] []
  | cons {f g fs gs} : FieldsMean ref params f g → FieldListsMean ref params fs gs →
      FieldListsMean ref params (f :: fs) (g :: gs)

/-- What a struct or enum stands for. -/
inductive DefMeans (ref : List String → String → Nat → List String → Prop) : Ast.Definition → Schema.Def → Prop where
  | struct {s : Ast.Struct} {fs} : FieldsMean ref s.generics s.fields fs → DefMeans ref (.struct s) (.struct fs)
  | enum {e : Ast.Enum} {vs : List Schema.Variant} :
      vs.map (·.name) = e.variants.map (·.name) → Assigned (e.variants.map (·.id)) (vs.map (·.id)) →
      FieldListsMean ref e.generics (e.variants.map (·.fields)) (vs.map (·.fields)) → DefMeans ref (.enum e) (.enum vs)

/-- A struct or enum of this name. -/
inductive IsTypeDef : Ast.Definition → String → Prop where
  | struct (s : Ast.Struct) : IsTypeDef (.struct s) s.name
  | enum (e : Ast.Enum) : IsTypeDef (.enum e) e.name

/-- The references of a definition that the resolver does not check the way Rust does: those inside `non_zero<..>` must
have a meaning, names of type parameters must have no arguments, and names imported at the top level of the file must not
be used inside its modules. -/
structure Clear (values : List (String × Ast.Schema)) (s : Ast.Schema) (mods : List String) (scope : List Ast.Definition)
    (d : Ast.Definition) : Prop where
  hidden : ∀ path name args, Refers d path name args → ¬ Mentioned d path name args →
    Resolves values s scope d path name args
  params : ∀ name args, Refers d [] name args → name ∈ typeParams d → args = []
  imports : mods ≠ [] → ∀ name args, Refers d [] name args → name ∉ typeParams d →
    Declares scope name args.length

end Mabo.Spec
