import Verif.Codegen
/-!
Vocabulary for stating the schema-level properties: what a struct payload looks like on the wire and
which side conditions a schema must meet. Nothing here is used by the model of the code.
-/
namespace Mabo.Spec
open Mabo.Buf Mabo.Schema Mabo.Codegen

/-- One encoded field: identifier, encoding marker and the bytes of the value. -/
structure WireField where
  id : FieldId
  body : Bytes

/-- The bytes of a sequence of encoded fields. -/
def wireBytes (m : List WireField) : Bytes := m.flatMap fun w => encId w.id ++ w.body

/-- A struct (or variant) payload: encoded fields and the end marker, a zero byte. -/
def payload (m : List WireField) : Bytes := wireBytes m ++ [0]

/-- Field number that fits the wire format and is not the end marker. -/
def idOk (id : BitVec 32) : Prop := 0 < id.toNat ∧ id.toNat < 2 ^ 29

instance (id : BitVec 32) : Decidable (idOk id) := by unfold idOk; exact inferInstance

/-- The ids of a field list are usable and pairwise distinct. -/
def FieldsOk (fs : List Field) : Prop := (fs.map (·.id)).Nodup ∧ ∀ f ∈ fs, idOk f.id

instance (fs : List Field) : Decidable (FieldsOk fs) := by unfold FieldsOk; exact inferInstance

/-- All ids of a definition are usable and pairwise distinct. -/
def DefOk : Def → Prop
  | .struct fs => FieldsOk fs.fields
  | .enum vars => (vars.map (·.id)).Nodup ∧ ∀ v ∈ vars, FieldsOk v.fields.fields

instance : (d : Def) → Decidable (DefOk d)
  | .struct fs => by unfold DefOk; exact inferInstance
  | .enum vars => by unfold DefOk; exact inferInstance

/-- All definitions of the schema have usable ids. -/
def EnvOk (env : Env) : Prop := ∀ name d, env name = some d → DefOk d

/-- The value of the last encoded field with number `id`, if there is one. -/
def lastVal {α : Type} (m : List (WireField × α)) (id : BitVec 32) : Option α :=
  ((m.filter fun e => e.1.id.value == id).getLast?).map (·.2)

/-- What the fields of a struct decode to, given for each field number the value found on the wire (if
any): present options are `Some`, absent ones `None`, and the first absent required field in
declaration order is reported. -/
def assemble (named : Bool) (look : BitVec 32 → Option Val) : List Field → Except Error (List Val)
  | [] => .ok []
  | f :: fs =>
    match look f.id, f.ty with
    | some v, .option _ => (assemble named look fs).map (.some v :: ·)
    | some v, _ => (assemble named look fs).map (v :: ·)
    | none, .option _ => (assemble named look fs).map (.none :: ·)
    | none, _ => .error (.missingField f.id.toNat (if named then some f.name else none))

/-- The encoded field is understood: a known field number whose body decodes to `v` (whatever follows),
or an unknown one that can be skipped by its marker. -/
def Understood (dec : Ty → Dec Val) (fs : List Field) (w : WireField) (v : Val) : Prop :=
  idOk w.id.value ∧
  ((∃ f ∈ fs, f.id = w.id.value ∧ ∀ s, dec (fieldTy f.ty) (w.body ++ s) = .ok v s) ∨
   ((∀ f ∈ fs, f.id ≠ w.id.value) ∧ ∀ s, decSkip w.id.encoding (w.body ++ s) = .ok () s))

end Mabo.Spec
