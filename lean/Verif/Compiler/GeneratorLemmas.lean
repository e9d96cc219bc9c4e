import Verif.Compiler.Generator
import Verif.Compiler.SimplifyLemmas
import Verif.Spec.Generator
/-! When the generator finishes. -/
namespace Mabo.Generator
open Mabo.Spec Mabo.Compiler Mabo.Simplify
open Mabo.Ast (DataType)

theorem nzArm_iff : ∀ t : DataType, nzArm (simplifyType t) = true ↔ NonZeroAble t
  | .prim p => by cases p <;> simp [simplifyType, nzArm, nzPrim, NonZeroAble]
  | .vec _ | .hashMap _ _ | .hashSet _ => by simp [simplifyType, nzArm, NonZeroAble]
  | .option _ | .nonZero _ | .tuple _ _ | .array _ _ | .external _ _ _ _ => by simp [simplifyType, nzArm, NonZeroAble]

mutual
theorem defOk_iff : ∀ t : DataType, defOk (simplifyType t) = true ↔ NonZeroOk t
  | .prim _ => by
    simp only [simplifyType, defOk, true_iff]; intro a h; cases h
  | .vec t => by
    simp only [simplifyType, defOk]; rw [defOk_iff t]
    exact ⟨fun h a hp => by cases hp; exact h a (by assumption), fun h a hp => h a (.vec hp)⟩
  | .hashSet t => by
    simp only [simplifyType, defOk]; rw [defOk_iff t]
    exact ⟨fun h a hp => by cases hp; exact h a (by assumption), fun h a hp => h a (.hashSet hp)⟩
  | .option t => by
    simp only [simplifyType, defOk]; rw [defOk_iff t]
    exact ⟨fun h a hp => by cases hp; exact h a (by assumption), fun h a hp => h a (.option hp)⟩
  | .array t _ => by
    simp only [simplifyType, defOk]; rw [defOk_iff t]
    exact ⟨fun h a hp => by cases hp; exact h a (by assumption), fun h a hp => h a (.array hp)⟩
  | .hashMap k v => by
    simp only [simplifyType, defOk, Bool.and_eq_true]; rw [defOk_iff k, defOk_iff v]
    constructor
    · rintro ⟨h1, h2⟩ a hp
      cases hp with
      | hashMapKey hp => exact h1 a hp
      | hashMapValue hp => exact h2 a hp
    · intro h; exact ⟨fun a hp => h a (.hashMapKey hp), fun a hp => h a (.hashMapValue hp)⟩
  | .nonZero t => by
    simp only [simplifyType, defOk, Bool.and_eq_true]; rw [nzArm_iff, defOk_iff t]
    constructor
    · rintro ⟨h1, h2⟩ a hp
      cases hp with
      | here => exact h1
      | nonZero hp => exact h2 a hp
    · intro h; exact ⟨h t .here, fun a hp => h a (.nonZero hp)⟩
  | .tuple ts _ => by
    simp only [simplifyType, defOk]; rw [defOks_iff ts]
    constructor
    · intro h a hp; cases hp with | tuple ht hp => exact h _ ht a hp
    · intro h t ht a hp; exact h a (.tuple ht hp)
  | .external _ _ ts _ => by
    simp only [simplifyType, defOk]; rw [defOks_iff ts]
    constructor
    · intro h a hp; cases hp with | argument ht hp => exact h _ ht a hp
    · intro h t ht a hp; exact h a (.argument ht hp)
theorem defOks_iff : ∀ ts : List DataType, defOks (simplifyTypes ts) = true ↔ ∀ t ∈ ts, NonZeroOk t
  | [] => by simp [simplifyTypes, defOks]
  | t :: ts => by simp only [simplifyTypes, defOks, Bool.and_eq_true]; rw [defOk_iff t, defOks_iff ts]; simp
end

theorem simplifyTypes_length : ∀ ts : List DataType, (simplifyTypes ts).length = ts.length
  | [] => rfl
  | t :: ts => by simp [simplifyTypes, simplifyTypes_length ts]

theorem tupleArm_iff {n : Nat} : tupleArm n = true ↔ 2 ≤ n ∧ n ≤ 12 := by simp [tupleArm]

/-- `non_zero` arguments fine, type arguments of named types aside. -/
def OwnNonZeroOk (t : DataType) : Prop := ∀ a, OwnPiece (.nonZero a) t → NonZeroAble a

/-- What `size` needs. -/
def OwnOk (t : DataType) : Prop := OwnNonZeroOk t ∧ OwnTuplesOk t

theorem ownOk_prim (p) : OwnOk (.prim p) := by
  constructor
  · intro a h; cases h
  · intro a tr h; cases h

theorem ownOk_external (p n g tr) : OwnOk (.external p n g tr) := by
  constructor
  · intro a h; cases h
  · intro a tr h; cases h

theorem ownOk_vec {t} : OwnOk (.vec t) ↔ OwnOk t :=
  ⟨fun h => ⟨fun a hp => h.1 a (.vec hp), fun a tr hp => h.2 a tr (.vec hp)⟩,
   fun h => ⟨fun a hp => by cases hp; exact h.1 a (by assumption), fun a tr hp => by cases hp; exact h.2 a tr (by assumption)⟩⟩

theorem ownOk_hashSet {t} : OwnOk (.hashSet t) ↔ OwnOk t :=
  ⟨fun h => ⟨fun a hp => h.1 a (.hashSet hp), fun a tr hp => h.2 a tr (.hashSet hp)⟩,
   fun h => ⟨fun a hp => by cases hp; exact h.1 a (by assumption), fun a tr hp => by cases hp; exact h.2 a tr (by assumption)⟩⟩

theorem ownOk_option {t} : OwnOk (.option t) ↔ OwnOk t :=
  ⟨fun h => ⟨fun a hp => h.1 a (.option hp), fun a tr hp => h.2 a tr (.option hp)⟩,
   fun h => ⟨fun a hp => by cases hp; exact h.1 a (by assumption), fun a tr hp => by cases hp; exact h.2 a tr (by assumption)⟩⟩

theorem ownOk_array {t n} : OwnOk (.array t n) ↔ OwnOk t :=
  ⟨fun h => ⟨fun a hp => h.1 a (.array hp), fun a tr hp => h.2 a tr (.array hp)⟩,
   fun h => ⟨fun a hp => by cases hp; exact h.1 a (by assumption), fun a tr hp => by cases hp; exact h.2 a tr (by assumption)⟩⟩

theorem ownOk_hashMap {k v} : OwnOk (.hashMap k v) ↔ OwnOk k ∧ OwnOk v := by
  constructor
  · intro h
    exact ⟨⟨fun a hp => h.1 a (.hashMapKey hp), fun a tr hp => h.2 a tr (.hashMapKey hp)⟩,
      ⟨fun a hp => h.1 a (.hashMapValue hp), fun a tr hp => h.2 a tr (.hashMapValue hp)⟩⟩
  · rintro ⟨h1, h2⟩
    constructor
    · intro a hp
      cases hp with
      | hashMapKey hp => exact h1.1 a hp
      | hashMapValue hp => exact h2.1 a hp
    · intro a tr hp
      cases hp with
      | hashMapKey hp => exact h1.2 a tr hp
      | hashMapValue hp => exact h2.2 a tr hp

theorem ownOk_nonZero {t} : OwnOk (.nonZero t) ↔ NonZeroAble t ∧ OwnOk t := by
  constructor
  · intro h
    exact ⟨h.1 t .here, ⟨fun a hp => h.1 a (.nonZero hp), fun a tr hp => h.2 a tr (.nonZero hp)⟩⟩
  · rintro ⟨h1, h2⟩
    constructor
    · intro a hp
      cases hp with
      | here => exact h1
      | nonZero hp => exact h2.1 a hp
    · intro a tr hp; cases hp with | nonZero hp => exact h2.2 a tr hp

theorem ownOk_tuple {ts tr} : OwnOk (.tuple ts tr) ↔ (2 ≤ ts.length ∧ ts.length ≤ 12) ∧ ∀ t ∈ ts, OwnOk t := by
  constructor
  · intro h
    exact ⟨h.2 ts tr .here, fun t ht => ⟨fun a hp => h.1 a (.tuple ht hp), fun a tr hp => h.2 a tr (.tuple ht hp)⟩⟩
  · rintro ⟨h1, h2⟩
    constructor
    · intro a hp; cases hp with | tuple ht hp => exact (h2 _ ht).1 a hp
    · intro a tr hp
      cases hp with
      | here => exact h1
      | tuple ht hp => exact (h2 _ ht).2 a tr hp

mutual
theorem sizeOk_iff : ∀ t : DataType, sizeOk (simplifyType t) = true ↔ OwnOk t
  | .prim p => by simp [simplifyType, sizeOk, ownOk_prim]
  | .vec t => by simp only [simplifyType, sizeOk, sizeOk_iff t, ownOk_vec]
  | .hashSet t => by simp only [simplifyType, sizeOk, sizeOk_iff t, ownOk_hashSet]
  | .option t => by simp only [simplifyType, sizeOk, sizeOk_iff t, ownOk_option]
  | .array t _ => by simp only [simplifyType, sizeOk, sizeOk_iff t, ownOk_array]
  | .hashMap k v => by
    simp only [simplifyType, sizeOk, Bool.and_eq_true, sizeOk_iff k, sizeOk_iff v, ownOk_hashMap]
  | .nonZero t => by simp only [simplifyType, sizeOk, Bool.and_eq_true, nzArm_iff, sizeOk_iff t, ownOk_nonZero]
  | .tuple ts _ => by
    simp only [simplifyType, sizeOk, Bool.and_eq_true, tupleArm_iff, simplifyTypes_length, sizeOks_iff ts, ownOk_tuple]
  | .external _ _ _ _ => by simp [simplifyType, sizeOk, ownOk_external]
theorem sizeOks_iff : ∀ ts : List DataType, sizeOks (simplifyTypes ts) = true ↔ ∀ t ∈ ts, OwnOk t
  | [] => by simp [simplifyTypes, sizeOks]
  | t :: ts => by simp only [simplifyTypes, sizeOks, Bool.and_eq_true, sizeOk_iff t, sizeOks_iff ts]; simp
end

mutual
theorem encOk_of : ∀ (root : Bool) (t : DataType), OwnOk t → encOk root (simplifyType t) = true
  | _, .prim p, _ => by simp [simplifyType, encOk]
  | _, .vec t, h => by
    simp only [simplifyType, encOk, Bool.and_eq_true, sizeOk_iff]
    exact ⟨ownOk_vec.1 h, encOk_of false t (ownOk_vec.1 h)⟩
  | _, .hashSet t, h => by
    simp only [simplifyType, encOk, Bool.and_eq_true, sizeOk_iff]
    exact ⟨ownOk_hashSet.1 h, encOk_of false t (ownOk_hashSet.1 h)⟩
  | _, .option t, h => by
    simp only [simplifyType, encOk]
    exact encOk_of false t (ownOk_option.1 h)
  | _, .array t _, h => by
    simp only [simplifyType, encOk, Bool.and_eq_true, sizeOk_iff]
    exact ⟨ownOk_array.1 h, encOk_of false t (ownOk_array.1 h)⟩
  | _, .hashMap k v, h => by
    simp only [simplifyType, encOk, Bool.and_eq_true, sizeOk_iff]
    have h := ownOk_hashMap.1 h
    exact ⟨⟨⟨h.1, h.2⟩, encOk_of false k h.1⟩, encOk_of false v h.2⟩
  | _, .nonZero t, h => by
    simp only [simplifyType, encOk, Bool.and_eq_true, nzArm_iff]
    have h := ownOk_nonZero.1 h
    exact ⟨h.1, encOk_of false t h.2⟩
  | root, .tuple ts _, h => by
    simp only [simplifyType, encOk, Bool.and_eq_true, tupleArm_iff, simplifyTypes_length, Bool.or_eq_true]
    have h := ownOk_tuple.1 h
    exact ⟨⟨h.1, encOks_of ts h.2⟩, .inr ((sizeOks_iff ts).2 h.2)⟩
  | _, .external _ _ _ _, _ => by simp [simplifyType, encOk]
theorem encOks_of : ∀ ts : List DataType, (∀ t ∈ ts, OwnOk t) → encOks (simplifyTypes ts) = true
  | [], _ => by simp [simplifyTypes, encOks]
  | t :: ts, h => by
    simp only [simplifyTypes, encOks, Bool.and_eq_true]
    exact ⟨encOk_of false t (h t (by simp)), encOks_of ts (fun t ht => h t (by simp [ht]))⟩
end

mutual
theorem decOk_of : ∀ (t : DataType), OwnOk t → NonZeroOk t → decOk (simplifyType t) = true
  | .prim p, _, _ => by simp [simplifyType, decOk]
  | .vec t, h, hn => by
    simp only [simplifyType, decOk]; exact decOk_of t (ownOk_vec.1 h) (fun a hp => hn a (.vec hp))
  | .hashSet t, h, hn => by
    simp only [simplifyType, decOk]; exact decOk_of t (ownOk_hashSet.1 h) (fun a hp => hn a (.hashSet hp))
  | .option t, h, hn => by
    simp only [simplifyType, decOk]; exact decOk_of t (ownOk_option.1 h) (fun a hp => hn a (.option hp))
  | .array t _, h, hn => by
    simp only [simplifyType, decOk]; exact decOk_of t (ownOk_array.1 h) (fun a hp => hn a (.array hp))
  | .hashMap k v, h, hn => by
    simp only [simplifyType, decOk, Bool.and_eq_true]
    have h := ownOk_hashMap.1 h
    exact ⟨decOk_of k h.1 (fun a hp => hn a (.hashMapKey hp)), decOk_of v h.2 (fun a hp => hn a (.hashMapValue hp))⟩
  | .nonZero t, h, hn => by
    simp only [simplifyType, decOk, Bool.and_eq_true, nzArm_iff]
    have h := ownOk_nonZero.1 h
    exact ⟨h.1, decOk_of t h.2 (fun a hp => hn a (.nonZero hp))⟩
  | .tuple ts _, h, hn => by
    simp only [simplifyType, decOk, Bool.and_eq_true, tupleArm_iff, simplifyTypes_length]
    have h := ownOk_tuple.1 h
    exact ⟨h.1, decOks_of ts h.2 (fun t ht a hp => hn a (.tuple ht hp))⟩
  | .external _ _ ts _, _, hn => by
    simp only [simplifyType, decOk]
    exact (defOks_iff ts).2 (fun t ht a hp => hn a (.argument ht hp))
theorem decOks_of : ∀ ts : List DataType, (∀ t ∈ ts, OwnOk t) → (∀ t ∈ ts, NonZeroOk t) →
    decOks (simplifyTypes ts) = true
  | [], _, _ => by simp [simplifyTypes, decOks]
  | t :: ts, h, hn => by
    simp only [simplifyTypes, decOks, Bool.and_eq_true]
    exact ⟨decOk_of t (h t (by simp)) (hn t (by simp)),
      decOks_of ts (fun t ht => h t (by simp [ht])) (fun t ht => hn t (by simp [ht]))⟩
end

theorem ownPiece_piece {u t : DataType} (h : OwnPiece u t) : Piece u t := by
  induction h with
  | here => exact .here
  | vec _ ih => exact .vec ih
  | hashMapKey _ ih => exact .hashMapKey ih
  | hashMapValue _ ih => exact .hashMapValue ih
  | hashSet _ ih => exact .hashSet ih
  | option _ ih => exact .option ih
  | nonZero _ ih => exact .nonZero ih
  | array _ ih => exact .array ih
  | tuple ht _ ih => exact .tuple ht ih

theorem ownOk_of {t : DataType} (hn : NonZeroOk t) (ht : OwnTuplesOk t) : OwnOk t :=
  ⟨fun a hp => hn a (ownPiece_piece hp), ht⟩

/-- The inner type of an option is a fine type if the option is. -/
theorem unwrap_simplify (t : DataType) : ∃ u, unwrapOption (simplifyType t) = simplifyType u ∧
    (OwnOk t ↔ OwnOk u) ∧ (NonZeroOk t → NonZeroOk u) := by
  cases t with
  | option t =>
    exact ⟨t, rfl, ownOk_option, fun h a hp => h a (.option hp)⟩
  | prim p => exact ⟨.prim p, rfl, Iff.rfl, id⟩
  | vec p => exact ⟨.vec p, rfl, Iff.rfl, id⟩
  | hashMap p q => exact ⟨.hashMap p q, rfl, Iff.rfl, id⟩
  | hashSet p => exact ⟨.hashSet p, rfl, Iff.rfl, id⟩
  | nonZero p => exact ⟨.nonZero p, rfl, Iff.rfl, id⟩
  | tuple p q => exact ⟨.tuple p q, rfl, Iff.rfl, id⟩
  | array p q => exact ⟨.array p q, rfl, Iff.rfl, id⟩
  | external p q r s => exact ⟨.external p q r s, rfl, Iff.rfl, id⟩

/-- One field. -/
theorem fieldOk_iff (t : DataType) :
    (defOk (simplifyType t) && encOk true (unwrapOption (simplifyType t)) && decOk (unwrapOption (simplifyType t)) &&
      sizeOk (unwrapOption (simplifyType t))) = true ↔ NonZeroOk t ∧ OwnTuplesOk t := by
  have ⟨u, hu, ho, hz⟩ := unwrap_simplify t
  rw [hu]
  simp only [Bool.and_eq_true, defOk_iff, sizeOk_iff]
  constructor
  · rintro ⟨⟨⟨h1, _⟩, _⟩, h4⟩
    exact ⟨h1, (ho.2 h4).2⟩
  · rintro ⟨h1, h2⟩
    have hw := ownOk_of h1 h2
    exact ⟨⟨⟨h1, encOk_of true u (ho.1 hw)⟩, decOk_of u (ho.1 hw) (hz h1)⟩, ho.1 hw⟩

/-- A list of simplified fields and the types they come from. -/
theorem simplifyNamed_types (checked : Bool) : ∀ (fs : List Ast.NamedField) (g : BitVec 32) (gs : List Field),
    simplifyNamed checked g fs = some gs → gs.map (·.ty) = fs.map fun f => simplifyType f.ty
  | [], _, gs, h => by simp only [simplifyNamed, Option.some.injEq] at h; subst h; rfl
  | f :: fs, g, gs, h => by
    simp only [simplifyNamed, Option.bind_eq_bind, Option.bind_eq_some_iff] at h
    obtain ⟨⟨id, g'⟩, _, rest, hr, hh⟩ := h
    simp only [Option.pure_def, Option.some.injEq] at hh
    subst hh
    simp [simplifyNamed_types checked fs _ rest hr]

theorem simplifyUnnamed_types (checked : Bool) :
    ∀ (fs : List Ast.UnnamedField) (i : Nat) (g : BitVec 32) (gs : List Field),
    simplifyUnnamed checked i g fs = some gs → gs.map (·.ty) = fs.map fun f => simplifyType f.ty
  | [], _, _, gs, h => by simp only [simplifyUnnamed, Option.some.injEq] at h; subst h; rfl
  | f :: fs, i, g, gs, h => by
    simp only [simplifyUnnamed, Option.bind_eq_bind, Option.bind_eq_some_iff] at h
    obtain ⟨⟨id, g'⟩, _, rest, hr, hh⟩ := h
    simp only [Option.pure_def, Option.some.injEq] at hh
    subst hh
    simp [simplifyUnnamed_types checked fs _ _ rest hr]

theorem simplifyFields_types {checked : Bool} {fs : Ast.Fields} {gs : Fields} (h : simplifyFields checked fs = some gs) :
    gs.fields.map (·.ty) = (fieldTypes fs).map simplifyType := by
  cases fs with
  | named fs tr =>
    simp only [simplifyFields, Option.bind_eq_bind, Option.bind_eq_some_iff, Option.pure_def, Option.some.injEq] at h
    obtain ⟨l, hl, rfl⟩ := h
    simp [simplifyNamed_types checked fs _ l hl, fieldTypes]
  | unnamed fs tr =>
    simp only [simplifyFields, Option.bind_eq_bind, Option.bind_eq_some_iff, Option.pure_def, Option.some.injEq] at h
    obtain ⟨l, hl, rfl⟩ := h
    simp [simplifyUnnamed_types checked fs _ _ l hl, fieldTypes]
  | unit => simp only [simplifyFields, Option.some.injEq] at h; subst h; rfl

theorem fieldsOk_iff {checked : Bool} {fs : Ast.Fields} {gs : Fields} (h : simplifyFields checked fs = some gs) :
    fieldsOk gs = true ↔ ∀ t, TypeOf fs t → NonZeroOk t ∧ OwnTuplesOk t := by
  have hl : fieldsOk gs = (gs.fields.map (·.ty)).all fun t =>
      defOk t && encOk true (unwrapOption t) && decOk (unwrapOption t) && sizeOk (unwrapOption t) := by
    simp [fieldsOk, List.all_map, Function.comp_def]
  rw [hl, simplifyFields_types h, List.all_map, List.all_eq_true]
  simp only [Function.comp_apply, fieldOk_iff, fieldTypes_mem]

theorem simplifyVariants_fields (checked : Bool) : ∀ (vs : List Ast.Variant) (g : BitVec 32) (ws : List Variant),
    simplifyVariants checked g vs = some ws →
    ((ws.all fun v => fieldsOk v.fields) = true ↔
      ∀ v ∈ vs, ∀ t, TypeOf v.fields t → NonZeroOk t ∧ OwnTuplesOk t)
  | [], _, ws, h => by simp only [simplifyVariants, Option.some.injEq] at h; subst h; simp
  | v :: vs, g, ws, h => by
    simp only [simplifyVariants, Option.bind_eq_bind, Option.bind_eq_some_iff] at h
    obtain ⟨fs, hf, ⟨id, g'⟩, _, rest, hr, hh⟩ := h
    simp only [Option.pure_def, Option.some.injEq] at hh
    subst hh
    rw [List.all_cons, Bool.and_eq_true, fieldsOk_iff hf, simplifyVariants_fields checked vs _ rest hr]
    simp

/-- Fine definitions. -/
def SupportedDef (d : Ast.Definition) : Prop :=
  (∀ fs, FieldsOf d fs → ∀ t, TypeOf fs t → NonZeroOk t ∧ OwnTuplesOk t) ∧
  (∀ a, d = .typeAlias a → NonZeroOk a.target) ∧ (∀ c, d = .const c → ConstType c.ty)

theorem constOk_iff : ∀ t : DataType, constOk (simplifyType t) = true ↔ ConstType t
  | .prim p => by cases p <;> simp [simplifyType, constOk, ConstType]
  | .vec _ | .hashMap _ _ | .hashSet _ => by simp [simplifyType, constOk, ConstType]
  | .option _ | .nonZero _ | .tuple _ _ | .array _ _ | .external _ _ _ _ => by simp [simplifyType, constOk, ConstType]

mutual
theorem definitionOk_iff (checked : Bool) : ∀ (d : Ast.Definition) (e : Definition),
    simplifyDefinition checked d = some e → (definitionOk e = true ↔ ∀ d', Inside d' d → SupportedDef d')
  | .module c n ds, e, h => by
    simp only [simplifyDefinition, Option.bind_eq_bind, Option.bind_eq_some_iff, Option.pure_def, Option.some.injEq] at h
    obtain ⟨es, he, rfl⟩ := h
    rw [definitionOk, definitionsOk_iff checked ds es he]
    constructor
    · intro h d' hi
      cases hi with
      | here => exact ⟨fun fs hf => (by cases hf), fun a ha => (by cases ha), fun c hc => (by cases hc)⟩
      | module hd hi => exact h _ hd d' hi
    · intro h d hd d' hi; exact h d' (.module hd hi)
  | .struct s, e, h => by
    simp only [simplifyDefinition, Option.bind_eq_bind, Option.bind_eq_some_iff, Option.pure_def, Option.some.injEq] at h
    obtain ⟨fs, hf, rfl⟩ := h
    rw [definitionOk, fieldsOk_iff hf]
    constructor
    · intro h d' hi
      have := inside_not_module hi (by simp); subst this
      exact ⟨fun fs hf => (by cases hf; exact h), fun a ha => (by cases ha), fun c hc => (by cases hc)⟩
    · intro h; exact (h _ .here).1 _ (.struct s)
  | .enum en, e, h => by
    simp only [simplifyDefinition, Option.bind_eq_bind, Option.bind_eq_some_iff, Option.pure_def, Option.some.injEq] at h
    obtain ⟨ws, hw, rfl⟩ := h
    rw [definitionOk, simplifyVariants_fields checked _ _ ws hw]
    constructor
    · intro h d' hi
      have := inside_not_module hi (by simp); subst this
      exact ⟨fun fs hf => (by cases hf with | variant _ v hv => exact h v hv), fun a ha => (by cases ha),
        fun c hc => (by cases hc)⟩
    · intro h v hv; exact (h _ .here).1 _ (.variant en v hv)
  | .typeAlias a, e, h => by
    simp only [simplifyDefinition, Option.some.injEq] at h
    subst h
    rw [definitionOk, defOk_iff]
    constructor
    · intro h d' hi
      have := inside_not_module hi (by simp); subst this
      exact ⟨fun fs hf => (by cases hf), fun a ha => (by cases ha; exact h), fun c hc => (by cases hc)⟩
    · intro h; exact (h _ .here).2.1 a rfl
  | .const c, e, h => by
    simp only [simplifyDefinition, Option.some.injEq] at h
    subst h
    rw [definitionOk, constOk_iff]
    constructor
    · intro h d' hi
      have := inside_not_module hi (by simp); subst this
      exact ⟨fun fs hf => (by cases hf), fun a ha => (by cases ha), fun c hc => (by cases hc; exact h)⟩
    · intro h; exact (h _ .here).2.2 c rfl
  | .import i, e, h => by
    simp only [simplifyDefinition, Option.some.injEq] at h
    subst h
    simp only [definitionOk, true_iff]
    intro d' hi
    have := inside_not_module hi (by simp); subst this
    exact ⟨fun fs hf => (by cases hf), fun a ha => (by cases ha), fun c hc => (by cases hc)⟩
theorem definitionsOk_iff (checked : Bool) : ∀ (ds : List Ast.Definition) (es : List Definition),
    simplifyDefinitions checked ds = some es →
    (definitionsOk es = true ↔ ∀ d ∈ ds, ∀ d', Inside d' d → SupportedDef d')
  | [], es, h => by simp only [simplifyDefinitions, Option.some.injEq] at h; subst h; simp [definitionsOk]
  | d :: ds, es, h => by
    simp only [simplifyDefinitions, Option.bind_eq_bind, Option.bind_eq_some_iff, Option.pure_def, Option.some.injEq] at h
    obtain ⟨e, he, es', hes, rfl⟩ := h
    rw [definitionsOk, Bool.and_eq_true, definitionOk_iff checked d e he, definitionsOk_iff checked ds es' hes]
    simp
end

theorem compileOk_iff {checked : Bool} {s : Ast.Schema} {t : Schema} (h : simplifySchema checked s = some t) :
    compileOk t = true ↔ Supported s := by
  simp only [simplifySchema, Option.bind_eq_bind, Option.bind_eq_some_iff, Option.pure_def, Option.some.injEq] at h
  obtain ⟨es, he, rfl⟩ := h
  rw [compileOk, definitionsOk_iff checked _ es he]
  constructor
  · intro h
    have hs : ∀ d, Occurs s d → SupportedDef d := fun d hd =>
      have ⟨e, he, hi⟩ := occurs_iff.1 hd
      h e he d hi
    exact ⟨fun d hd => (hs d hd).1, fun a ha => (hs _ ha).2.1 a rfl, fun c hc => (hs _ hc).2.2 c rfl⟩
  · intro h d hd d' hi
    have ho : Occurs s d' := occurs_iff.2 ⟨d, hd, hi⟩
    exact ⟨h.fields d' ho, fun a ha => h.aliases a (ha ▸ ho), fun c hc => h.consts c (hc ▸ ho)⟩

/-- A piece is visible to the validator or is inside a `non_zero`. -/
theorem ownPiece_part {u t : DataType} (h : OwnPiece u t) :
    Part u t ∨ ∃ a, Piece (.nonZero a) t ∧ OwnPiece u a := by
  induction h with
  | here => exact .inl .here
  | vec _ ih => exact ih.imp .vec fun ⟨a, h1, h2⟩ => ⟨a, .vec h1, h2⟩
  | hashMapKey _ ih => exact ih.imp .hashMapKey fun ⟨a, h1, h2⟩ => ⟨a, .hashMapKey h1, h2⟩
  | hashMapValue _ ih => exact ih.imp .hashMapValue fun ⟨a, h1, h2⟩ => ⟨a, .hashMapValue h1, h2⟩
  | hashSet _ ih => exact ih.imp .hashSet fun ⟨a, h1, h2⟩ => ⟨a, .hashSet h1, h2⟩
  | option _ ih => exact ih.imp .option fun ⟨a, h1, h2⟩ => ⟨a, .option h1, h2⟩
  | nonZero hp _ => exact .inr ⟨_, .here, hp⟩
  | array _ ih => exact ih.imp .array fun ⟨a, h1, h2⟩ => ⟨a, .array h1, h2⟩
  | tuple ht _ ih => exact ih.imp (.tuple ht) fun ⟨a, h1, h2⟩ => ⟨a, .tuple ht h1, h2⟩

end Mabo.Generator
