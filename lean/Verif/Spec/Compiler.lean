import Verif.Ast
/-!
What a valid schema is, said without reference to the validator: where definitions and types occur, which numbers
fields and variants get, which names a scope introduces.
-/
namespace Mabo.Spec
open Mabo.Ast

/-- The lists of definitions of a schema: its own and those of its modules at any depth. -/
inductive Scope (s : Ast.Schema) : List Definition → Prop where
  | root : Scope s s.definitions
  | module {ds ds' : List Definition} {comment : List String} {name : String} :
      Scope s ds → Definition.module comment name ds' ∈ ds → Scope s ds'

/-- A definition anywhere in the schema. -/
def Occurs (s : Ast.Schema) (d : Definition) : Prop := ∃ ds, Scope s ds ∧ d ∈ ds

/-- The field lists of a definition. -/
inductive FieldsOf : Definition → Fields → Prop where
  | struct (st : Struct) : FieldsOf (.struct st) st.fields
  | variant (e : Enum) (v : Variant) : v ∈ e.variants → FieldsOf (.enum e) v.fields

/-- The types written in a field list. -/
inductive TypeOf : Fields → DataType → Prop where
  | named {fs : List NamedField} {tr : Bool} (f : NamedField) : f ∈ fs → TypeOf (.named fs tr) f.ty
  | unnamed {fs : List UnnamedField} {tr : Bool} (f : UnnamedField) : f ∈ fs → TypeOf (.unnamed fs tr) f.ty

/-- The types written in a definition. -/
inductive DefType : Definition → DataType → Prop where
  | field {d : Definition} {fs : Fields} {t : DataType} : FieldsOf d fs → TypeOf fs t → DefType d t
  | alias (a : TypeAlias) : DefType (.typeAlias a) a.target
  | const (c : Const) : DefType (.const c) c.ty

/-- `u` is part of `t` and not inside a `non_zero<..>`. -/
inductive Part (u : DataType) : DataType → Prop where
  | here : Part u u
  | vec {t} : Part u t → Part u (.vec t)
  | hashMapKey {k v} : Part u k → Part u (.hashMap k v)
  | hashMapValue {k v} : Part u v → Part u (.hashMap k v)
  | hashSet {t} : Part u t → Part u (.hashSet t)
  | option {t} : Part u t → Part u (.option t)
  | array {t n} : Part u t → Part u (.array t n)
  | tuple {t ts tr} : t ∈ ts → Part u t → Part u (.tuple ts tr)
  | argument {t path name args tr} : t ∈ args → Part u t → Part u (.external path name args tr)

/-- The explicit numbers of a field list, in order. -/
def givenIds : Fields → List (Option (BitVec 32))
  | .named fs _ => fs.map (·.id)
  | .unnamed fs _ => fs.map (·.id)
  | .unit => []

/-- `ids` are the numbers assigned to a list of optional explicit numbers: explicit ones are kept, an omitted one is the
successor of the one before it, and 1 at the beginning. (Addition is that of `u32`, see `NoOverflow`.) -/
structure Assigned (given : List (Option (BitVec 32))) (ids : List (BitVec 32)) : Prop where
  length : ids.length = given.length
  explicit : ∀ (i : Nat) (n : BitVec 32), given[i]? = some (some n) → ids[i]? = some n
  first : given[0]? = some none → ids[0]? = some 1
  next : ∀ (i : Nat) (p : BitVec 32), given[i + 1]? = some none → ids[i]? = some p → ids[i + 1]? = some (p + 1)

/-- No assigned number is `u32::MAX`, so that there always is a next one. -/
def NoOverflow (given : List (Option (BitVec 32))) : Prop :=
  ∀ ids, Assigned given ids → ∀ id ∈ ids, id.toNat ≠ 2 ^ 32 - 1

/-- The assigned numbers are pairwise different. -/
def DistinctIds (given : List (Option (BitVec 32))) : Prop := ∀ ids, Assigned given ids → ids.Nodup

/-- The lists of numbers a definition declares: its variants and each of its field lists. -/
inductive IdList : Definition → List (Option (BitVec 32)) → Prop where
  | variants (e : Enum) : IdList (.enum e) (e.variants.map (·.id))
  | fields {d : Definition} {fs : Fields} : FieldsOf d fs → IdList d (givenIds fs)

/-- Numbers are unique in every field list and every list of variants. -/
def IdsOk (s : Ast.Schema) : Prop := ∀ d, Occurs s d → ∀ l, IdList d l → DistinctIds l

/-- The name a definition brings into its scope; an import introduces its element or its last segment. -/
def introduced : Definition → List String
  | .module _ name _ => [name]
  | .struct s => [s.name]
  | .enum e => [e.name]
  | .typeAlias a => [a.name]
  | .const c => [c.name]
  | .import ⟨_, some name⟩ => [name]
  | .import ⟨segments, none⟩ => segments.drop (segments.length - 1)

/-- Names of the fields (unnamed fields have none). -/
def fieldNamesOf : Fields → List String
  | .named fs _ => fs.map (·.name)
  | _ => []

/-- Names are unique in every scope, every field list and every list of variants. -/
structure NamesOk (s : Ast.Schema) : Prop where
  scopes : ∀ ds, Scope s ds → (ds.flatMap introduced).Nodup
  fields : ∀ d, Occurs s d → ∀ fs, FieldsOf d fs → (fieldNamesOf fs).Nodup
  variants : ∀ e, Occurs s (.enum e) → (e.variants.map (·.name)).Nodup

/-- Declared type parameters. -/
def typeParams : Definition → List String
  | .struct s => s.generics
  | .enum e => e.generics
  | _ => []

/-- The parameter is mentioned, as a plain name, in a field of the definition (outside `non_zero<..>`). -/
def Used (d : Definition) (g : String) : Prop :=
  ∃ fs t tr, FieldsOf d fs ∧ TypeOf fs t ∧ Part (.external [] g [] tr) t

/-- Type parameters are unique and used. -/
def GenericsOk (s : Ast.Schema) : Prop :=
  ∀ d, Occurs s d → (typeParams d).Nodup ∧ ∀ g ∈ typeParams d, Used d g

/-- All tuples (outside `non_zero<..>`) have two to twelve elements. -/
def TupleOk (t : DataType) : Prop := ∀ ts tr, Part (.tuple ts tr) t → 2 ≤ ts.length ∧ ts.length ≤ 12

/-- All tuples of all types of the schema have two to twelve elements. -/
def TuplesOk (s : Ast.Schema) : Prop := ∀ d, Occurs s d → ∀ t, DefType d t → TupleOk t

/-- Everything the validator promises. -/
structure ValidSchema (s : Ast.Schema) : Prop where
  ids : IdsOk s
  names : NamesOk s
  generics : GenericsOk s
  tuples : TuplesOk s

/-- `a` stands at position `i` and at the earlier position `j`, and nothing before position `i` is repeated. -/
def Clash {α : Type} (l : List α) (i j : Nat) (a : α) : Prop :=
  j < i ∧ l[i]? = some a ∧ l[j]? = some a ∧ (l.take i).Nodup

/-- `a` is the first repeated element. -/
def Twice {α : Type} (l : List α) (a : α) : Prop := ∃ i j : Nat, Clash l i j a

/-- No number anywhere is `u32::MAX`. -/
def NoIdOverflow (s : Ast.Schema) : Prop := ∀ d, Occurs s d → ∀ l, IdList d l → NoOverflow l

end Mabo.Spec
