import Verif.Spec.Syntax
/-!
Specification: which schemas can be written down (all names well-formed, no empty lists, trailing commas only where there
is a list), and the literals that occur in a schema.
-/
namespace Mabo.Spec
open Mabo.Ast

/-- The lines of a comment: no line break in them and no blank at their start. -/
def CommentWf (lines : List String) : Prop :=
  ∀ l ∈ lines, '\n' ∉ l.toList ∧ l.toList.head? ≠ some ' ' ∧ l.toList.head? ≠ some '\t'

mutual
/-- Attributes: names as for fields; nested attributes are not empty. -/
def AttrWf : Attribute → Prop
  | .unit n => SnakeName n
  | .single n _ => SnakeName n
  | .multi n as => SnakeName n ∧ as ≠ [] ∧ AttrsWf as
/-- For all of them. -/
def AttrsWf : List Attribute → Prop
  | [] => True
  | a :: as => AttrWf a ∧ AttrsWf as
end

/-- A named field. -/
def NamedFieldWf (f : NamedField) : Prop := CommentWf f.comment ∧ SnakeName f.name ∧ TypeOk f.ty

/-- Fields: there is at least one, unless there are no delimiters at all. -/
def FieldsWf : Fields → Prop
  | .named fs _ => fs ≠ [] ∧ ∀ f ∈ fs, NamedFieldWf f
  | .unnamed fs _ => fs ≠ [] ∧ ∀ f ∈ fs, TypeOk f.ty
  | .unit => True

/-- Type parameters; no trailing comma without any. -/
def TypeParamsWf (gs : List String) (trailing : Bool) : Prop :=
  (∀ g ∈ gs, CamelName g) ∧ (gs = [] → trailing = false)

/-- A variant. -/
def VariantWf (v : Variant) : Prop := CommentWf v.comment ∧ CamelName v.name ∧ FieldsWf v.fields

/-- A struct. -/
def StructWf (s : Struct) : Prop := CommentWf s.comment ∧ AttrsWf s.attributes ∧ CamelName s.name ∧
  TypeParamsWf s.generics s.genericsTrailing ∧ FieldsWf s.fields

/-- An enum; it has at least one variant. -/
def EnumWf (e : Enum) : Prop := CommentWf e.comment ∧ AttrsWf e.attributes ∧ CamelName e.name ∧
  TypeParamsWf e.generics e.genericsTrailing ∧ e.variants ≠ [] ∧ ∀ v ∈ e.variants, VariantWf v

/-- An alias. -/
def AliasWf (a : TypeAlias) : Prop := CommentWf a.comment ∧ CamelName a.name ∧
  TypeParamsWf a.generics a.genericsTrailing ∧ TypeOk a.target

/-- A constant. -/
def ConstWf (c : Const) : Prop := CommentWf c.comment ∧ UpperName c.name ∧ TypeOk c.ty

/-- An import; it has at least one segment. -/
def ImportWf (i : Import) : Prop := i.segments ≠ [] ∧ (∀ s ∈ i.segments, SnakeName s) ∧
  ∀ e, i.element = some e → CamelName e

mutual
/-- A definition. -/
def DefWf : Definition → Prop
  | .module comment n ds => CommentWf comment ∧ SnakeName n ∧ DefsWf ds
  | .struct s => StructWf s
  | .enum e => EnumWf e
  | .typeAlias a => AliasWf a
  | .const c => ConstWf c
  | .import i => ImportWf i
/-- For all of them. -/
def DefsWf : List Definition → Prop
  | [] => True
  | d :: ds => DefWf d ∧ DefsWf ds
end

/-- A schema. -/
def SchemaWf (s : Schema) : Prop := CommentWf s.comment ∧ DefsWf s.definitions

mutual
/-- The literals of an attribute. -/
def attrLiterals : Attribute → List Literal
  | .unit _ => []
  | .single _ l => [l]
  | .multi _ as => attrsLiterals as
/-- Of all of them. -/
def attrsLiterals : List Attribute → List Literal
  | [] => []
  | a :: as => attrLiterals a ++ attrsLiterals as
end

mutual
/-- The literals of a definition: values of constants and attributes. -/
def defLiterals : Definition → List Literal
  | .module _ _ ds => defsLiterals ds
  | .struct s => attrsLiterals s.attributes
  | .enum e => attrsLiterals e.attributes
  | .const c => [c.value]
  | .typeAlias _ => []
  | .import _ => []
/-- Of all of them. -/
def defsLiterals : List Definition → List Literal
  | [] => []
  | d :: ds => defLiterals d ++ defsLiterals ds
end

/-- The literals of a schema. -/
def schemaLiterals (s : Schema) : List Literal := defsLiterals s.definitions

/-- A float that is printed like an integer. -/
def FloatInt (showFloat : BitVec 64 → List Char) (f : BitVec 64) : Prop := ∃ i : Int, showFloat f = (toString i).toList

/-- The ways Rust prints a float: with a point, like an integer, as negative zero (`-0`), or not as a number. In the first
case the text is read back as the same float. -/
def FloatForms (showFloat : BitVec 64 → List Char) (readFloat : List Char → BitVec 64) : Prop :=
  ∀ f, FloatOk showFloat readFloat f ∨ FloatInt showFloat f ∨ showFloat f = "-0".toList ∨
    showFloat f ∈ ["NaN".toList, "inf".toList, "-inf".toList]

end Mabo.Spec
