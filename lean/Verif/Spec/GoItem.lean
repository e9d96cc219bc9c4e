import Verif.Spec.GoRuntime
import Verif.Spec.GoBuild
/-! Values of the emitted Go types that can be sent. -/
namespace Mabo.Spec.GoRun
open Mabo.Go Mabo.Simplify
open Mabo.Schema (Prim)
open Mabo.Parse (Text)

/-- The name that a field has in Go. -/
def goName (f : Field) : Text := upperCamel f.name.toList

/-- The fields have the types that are covered, and different names in Go. -/
structure PlainFields (fs : Fields) : Prop where
  types : ∀ f ∈ fs.fields, basicTy f.ty = true
  names : (fs.fields.map goName).Nodup

/-- The values `g` of the fields: those that are optional are nil, and the others are values of their types. -/
structure Sendable (Leaf : Prim → Val → Prop) (fs : Fields) (g : Text → Val) : Prop where
  nil : ∀ f ∈ fs.fields, isOption f.ty = true → g (goName f) = .nil
  fits : ∀ f ∈ fs.fields, isOption f.ty = false → Fits Leaf f.ty (g (goName f))

/-- A value of the struct `x` with these fields is written, measured and read by these methods: `Encode` appends the message to what
there is, `Size` is its length, and `Decode` returns `out` and leaves the fields as in `After`, whatever they were. -/
structure Transfers (ρ : Runtime) (x : Text) (enc size dec : List Stmt) (g : Text → Val) (msg : List UInt8) (out : List Val)
    (After : (Text → Val) → Prop) : Prop where
  encode : ∀ w, Returns ρ (bytesParam "w") enc (.obj x g) [.bytes w] [.bytes (w ++ msg)] (.obj x g)
  size : Returns ρ [] size (.obj x g) [] [.num msg.length] (.obj x g)
  decode : ∀ g₀, ∃ g', Returns ρ (bytesParam "r") dec (.obj x g₀) [.bytes msg] out (.obj x g') ∧ After g'

end Mabo.Spec.GoRun
