import Verif.Compiler.Simplify
import Verif.Spec.Compiler
/-! What it means for a simplified schema to say the same as the written one. -/
namespace Mabo.Spec
open Mabo

mutual
/-- The same type, trailing commas aside. -/
inductive SameType : Ast.DataType → Simplify.Ty → Prop where
  | prim (p) : SameType (.prim p) (.prim p)
  | vec {t u} : SameType t u → SameType (.vec t) (.vec u)
  | hashMap {k v k' v'} : SameType k k' → SameType v v' → SameType (.hashMap k v) (.hashMap k' v')
  | hashSet {t u} : SameType t u → SameType (.hashSet t) (.hashSet u)
  | option {t u} : SameType t u → SameType (.option t) (.option u)
  | nonZero {t u} : SameType t u → SameType (.nonZero t) (.nonZero u)
  | tuple {ts us tr} : SameTypes ts us → SameType (.tuple ts tr) (.tuple us)
  | array {t u n} : SameType t u → SameType (.array t n) (.array u n)
  | external {p n ts us tr} : SameTypes ts us → SameType (.external p n ts tr) (.external p n us)
/-- The same types in the same order. -/
inductive SameTypes : List Ast.DataType → List Simplify.Ty → Prop where
  | nil : SameTypes [] []
  | cons {t u ts us} : SameType t u → SameTypes ts us → SameTypes (t :: ts) (u :: us)
end

/-- The same fields in the same order, with the numbers of `Assigned`; unnamed fields have pairwise distinct names. -/
inductive SameFields : Ast.Fields → Simplify.Fields → Prop where
  | named {fs tr} {gs : List Simplify.Field} :
      gs.map (·.name) = fs.map (·.name) → gs.map (·.comment) = fs.map (·.comment) →
      SameTypes (fs.map (·.ty)) (gs.map (·.ty)) → Assigned (fs.map (·.id)) (gs.map (·.id)) →
      SameFields (.named fs tr) ⟨gs, .named⟩
  | unnamed {fs tr} {gs : List Simplify.Field} :
      (gs.map (·.name)).Nodup → (∀ g ∈ gs, g.comment = []) →
      SameTypes (fs.map (·.ty)) (gs.map (·.ty)) → Assigned (fs.map (·.id)) (gs.map (·.id)) →
      SameFields (.unnamed fs tr) ⟨gs, .unnamed⟩
  | unit : SameFields .unit ⟨[], .unit⟩

/-- The same field lists in the same order. -/
inductive SameFieldLists : List Ast.Fields → List Simplify.Fields → Prop where
  | nil : SameFieldLists [] []
  | cons {f g fs gs} : SameFields f g → SameFieldLists fs gs → SameFieldLists (f :: fs) (g :: gs)

mutual
/-- The same definition. -/
inductive SameDef : Ast.Definition → Simplify.Definition → Prop where
  | module {c n ds es} : SameDefs ds es → SameDef (.module c n ds) (.module c n es)
  | struct {s : Ast.Struct} {fs} : SameFields s.fields fs →
      SameDef (.struct s) (.struct ⟨s.comment, s.name, s.generics, fs⟩)
  | enum {e : Ast.Enum} {vs : List Simplify.Variant} :
      vs.map (·.name) = e.variants.map (·.name) → vs.map (·.comment) = e.variants.map (·.comment) →
      Assigned (e.variants.map (·.id)) (vs.map (·.id)) →
      SameFieldLists (e.variants.map (·.fields)) (vs.map (·.fields)) →
      SameDef (.enum e) (.enum ⟨e.comment, e.name, e.generics, vs⟩)
  | typeAlias {a : Ast.TypeAlias} {t} : SameType a.target t →
      SameDef (.typeAlias a) (.typeAlias ⟨a.comment, a.name, a.generics, t⟩)
  | const {c : Ast.Const} {t} : SameType c.ty t → SameDef (.const c) (.const ⟨c.comment, c.name, t, c.value⟩)
  | import (i : Ast.Import) : SameDef (.import i) (.import i.segments i.element)
/-- The same definitions in the same order. -/
inductive SameDefs : List Ast.Definition → List Simplify.Definition → Prop where
  | nil : SameDefs [] []
  | cons {d e ds es} : SameDef d e → SameDefs ds es → SameDefs (d :: ds) (e :: es)
end

/-- The same schema. -/
def SameSchema (s : Ast.Schema) (t : Simplify.Schema) : Prop :=
  t.comment = s.comment ∧ SameDefs s.definitions t.definitions

end Mabo.Spec
