import Verif.Doc.Render
import Verif.Parser.SchemaInv
import Verif.Parser.SchemaDefs
import Verif.Compiler.SimplifyLemmas
/-! The text of a definition on its page is what the formatter prints for a definition with the same simplification. -/
namespace Mabo.Doc
open Mabo.Simplify Mabo.Spec
open Mabo.Parse hiding separated1

/-! ### The definition that is printed -/

mutual
/-- A written type for a simplified one. -/
def undocType : Ty → Ast.DataType
  | .prim p => .prim p
  | .vec t => .vec (undocType t)
  | .hashMap k v => .hashMap (undocType k) (undocType v)
  | .hashSet t => .hashSet (undocType t)
  | .option t => .option (undocType t)
  | .nonZero t => .nonZero (undocType t)
  | .tuple ts => .tuple (undocTypes ts) false
  | .array t n => .array (undocType t) n
  | .external path name gs => .external path name (undocTypes gs) false
/-- Written types. -/
def undocTypes : List Ty → List Ast.DataType
  | [] => []
  | t :: ts => undocType t :: undocTypes ts
end

/-- A written named field. -/
def undocNamed (f : Field) : Ast.NamedField := { name := f.name, ty := undocType f.ty, id := some f.id }
/-- A written unnamed field. -/
def undocUnnamed (f : Field) : Ast.UnnamedField := { ty := undocType f.ty, id := some f.id }

/-- Written fields. -/
def undocFields (fs : Fields) : Ast.Fields := match fs.kind with
  | .named => .named (fs.fields.map undocNamed) true
  | .unnamed => .unnamed (fs.fields.map undocUnnamed) false
  | .unit => .unit

/-- A written variant. -/
def undocVariant (v : Variant) : Ast.Variant := { name := v.name, fields := undocFields v.fields, id := some v.id }

/-- A written struct. -/
def undocStruct (s : Struct) : Ast.Struct := { name := s.name, generics := s.generics, fields := undocFields s.fields }
/-- A written enum. -/
def undocEnum (e : Enum) : Ast.Enum :=
  { name := e.name, generics := e.generics, variants := e.variants.map undocVariant, variantsTrailing := true }
/-- A written alias. -/
def undocAlias (a : TypeAlias) : Ast.TypeAlias := { name := a.name, generics := a.generics, target := undocType a.target }
/-- A written constant. -/
def undocConst (c : Const) : Ast.Const := { name := c.name, ty := undocType c.ty, value := c.value }

/-! ### Types -/

theorem docPrim_eq (p : Schema.Prim) : docPrim p = (printPrim p).toList := by cases p <;> rfl

theorem docPath_eq : ∀ p, docPath p = printPath p
  | [] => rfl
  | s :: ss => by rw [docPath, printPath, docPath_eq ss]

theorem docTypes_nil (b : Bool) : docTypes b [] = [] := rfl
theorem docTypes_cons (b : Bool) (t : Ty) (ts : List Ty) :
    docTypes b (t :: ts) = (if b then [] else ", ".toList) ++ docType t ++ docTypes false ts := rfl
theorem printTypes_one (t : Ast.DataType) : printTypes [t] false = printType t ++ [] := rfl
theorem printTypes_more (t u : Ast.DataType) (ts : List Ast.DataType) :
    printTypes (t :: u :: ts) false = printType t ++ [',', ' '] ++ printTypes (u :: ts) false := rfl

mutual
theorem docType_eq : ∀ t, docType t = printType (undocType t)
  | .prim p => docPrim_eq p
  | .vec t => congrArg (fun x => "vec<".toList ++ x ++ ['>']) (docType_eq t)
  | .hashMap k v => by
    show "hash_map<".toList ++ docType k ++ [',', ' '] ++ docType v ++ ['>'] = _
    rw [docType_eq k, docType_eq v]; rfl
  | .hashSet t => congrArg (fun x => "hash_set<".toList ++ x ++ ['>']) (docType_eq t)
  | .option t => congrArg (fun x => "option<".toList ++ x ++ ['>']) (docType_eq t)
  | .nonZero t => congrArg (fun x => "non_zero<".toList ++ x ++ ['>']) (docType_eq t)
  | .tuple ts => congrArg (fun x => ['('] ++ x ++ [')']) (docTypes_eq ts).1
  | .array t n => congrArg (fun x => ['['] ++ x ++ [';', ' '] ++ printNat n.toNat ++ [']']) (docType_eq t)
  | .external p n [] => congrArg (fun x => x ++ n.toList ++ []) (docPath_eq p)
  | .external p n (g :: gs) => by
    have h := (docTypes_eq (g :: gs)).1
    show docPath p ++ n.toList ++ (['<'] ++ docTypes true (g :: gs) ++ ['>']) = _
    rw [docPath_eq, h]; rfl
theorem docTypes_eq : ∀ ts, docTypes true ts = printTypes (undocTypes ts) false ∧
    (∀ t ts', ts = t :: ts' → docTypes false ts = ", ".toList ++ printTypes (undocTypes ts) false)
  | [] => ⟨rfl, by intro _ _ h; cases h⟩
  | [t] => by
    have e := docType_eq t
    refine ⟨?_, ?_⟩
    · rw [docTypes_cons, undocTypes, undocTypes, printTypes_one, e, docTypes_nil]; simp
    · intro _ _ _
      rw [docTypes_cons, undocTypes, undocTypes, printTypes_one, e, docTypes_nil]; simp
  | t :: u :: ts => by
    have e := docType_eq t
    have ih := (docTypes_eq (u :: ts)).2 u ts rfl
    rw [undocTypes] at ih
    refine ⟨?_, ?_⟩
    · rw [docTypes_cons, undocTypes, undocTypes, printTypes_more, e, ih]; simp
    · intro _ _ _
      rw [docTypes_cons, undocTypes, undocTypes, printTypes_more, e, ih]; simp
end

mutual
theorem simplify_undocType : ∀ t, simplifyType (undocType t) = t
  | .prim p => rfl
  | .vec t => by rw [undocType, simplifyType, simplify_undocType t]
  | .hashMap k v => by rw [undocType, simplifyType, simplify_undocType k, simplify_undocType v]
  | .hashSet t => by rw [undocType, simplifyType, simplify_undocType t]
  | .option t => by rw [undocType, simplifyType, simplify_undocType t]
  | .nonZero t => by rw [undocType, simplifyType, simplify_undocType t]
  | .tuple ts => by rw [undocType, simplifyType, simplify_undocTypes ts]
  | .array t n => by rw [undocType, simplifyType, simplify_undocType t]
  | .external p n gs => by rw [undocType, simplifyType, simplify_undocTypes gs]
theorem simplify_undocTypes : ∀ ts, simplifyTypes (undocTypes ts) = ts
  | [] => rfl
  | t :: ts => by rw [undocTypes, simplifyTypes, simplify_undocType t, simplify_undocTypes ts]
end

mutual
theorem undocType_ok : ∀ t, TypeOk t → TypeOk (undocType (simplifyType t))
  | .prim p, h => by rw [simplifyType, undocType]; exact h
  | .vec t, h => by rw [TypeOk] at h; rw [simplifyType, undocType, TypeOk]; exact undocType_ok t h
  | .hashMap k v, h => by
    rw [TypeOk] at h; rw [simplifyType, undocType, TypeOk]; exact ⟨undocType_ok k h.1, undocType_ok v h.2⟩
  | .hashSet t, h => by rw [TypeOk] at h; rw [simplifyType, undocType, TypeOk]; exact undocType_ok t h
  | .option t, h => by rw [TypeOk] at h; rw [simplifyType, undocType, TypeOk]; exact undocType_ok t h
  | .nonZero t, h => by rw [TypeOk] at h; rw [simplifyType, undocType, TypeOk]; exact undocType_ok t h
  | .tuple ts _, h => by
    rw [TypeOk] at h; rw [simplifyType, undocType, TypeOk]
    refine ⟨?_, undocTypes_ok ts h.2⟩
    cases ts with
    | nil => exact absurd rfl h.1
    | cons t ts => rw [simplifyTypes, undocTypes]; simp
  | .array t n, h => by rw [TypeOk] at h; rw [simplifyType, undocType, TypeOk]; exact undocType_ok t h
  | .external p n gs _, h => by
    rw [TypeOk] at h; rw [simplifyType, undocType, TypeOk]
    exact ⟨h.1, h.2.1, h.2.2.1, undocTypes_ok gs h.2.2.2.1, fun _ => rfl⟩
theorem undocTypes_ok : ∀ ts, TypeOks ts → TypeOks (undocTypes (simplifyTypes ts))
  | [], _ => by rw [simplifyTypes, undocTypes]; trivial
  | t :: ts, h => by
    rw [TypeOks] at h; rw [simplifyTypes, undocTypes, TypeOks]
    exact ⟨undocType_ok t h.1, undocTypes_ok ts h.2⟩
end

/-! ### Fields and type parameters -/

theorem docNames_eq : ∀ gs : List String, docNames true gs = inline.go false (gs.map String.toList) ∧
    (∀ g gs', gs = g :: gs' → docNames false gs = ", ".toList ++ inline.go false (gs.map String.toList))
  | [] => ⟨rfl, by intro _ _ h; cases h⟩
  | [g] => ⟨by simp [docNames, inline.go], by intro _ _ _; simp [docNames, inline.go]⟩
  | g :: g' :: gs => by
    have ih := (docNames_eq (g' :: gs)).2 g' gs rfl
    have e : ∀ a b (l : List Text), inline.go false (a :: b :: l) = a ++ ", ".toList ++ inline.go false (b :: l) :=
      fun _ _ _ => rfl
    refine ⟨?_, ?_⟩
    · rw [docNames, ih]; simp only [List.map_cons, e]; simp
    · intro _ _ _
      rw [docNames, ih]; simp only [List.map_cons, e]; simp

theorem docGenerics_eq (gs : List String) : docGenerics gs = printGenerics gs false := by
  cases gs with
  | nil => rfl
  | cons g gs =>
    unfold docGenerics printGenerics
    rw [if_neg (by simp), if_neg (by simp), (docNames_eq _).1]
    simp [Parse.inline]

theorem docNamed_eq (level : Nat) (f : Field) : indent level ++ docNamed f = printNamedField level (undocNamed f) := by
  simp [docNamed, printNamedField, undocNamed, printComment, printOptId, printId, docType_eq]

theorem docUnnamed_eq (f : Field) : docUnnamed f = printUnnamedField (undocUnnamed f) := by
  simp [docUnnamed, printUnnamedField, undocUnnamed, printOptId, printId, docType_eq]

theorem docNamedLines_eq (level : Nat) : ∀ fs : List Field, fs ≠ [] →
    docNamedLines (indent level) fs = block.go true ((fs.map undocNamed).map (printNamedField level)) ++ ['\n']
  | [], h => absurd rfl h
  | [f], _ => by
    rw [docNamedLines, docNamedLines, docNamed_eq]; simp [block.go]
  | f :: g :: fs, _ => by
    have ih := docNamedLines_eq level (g :: fs) (by simp)
    have e : ∀ a b (l : List Text), block.go true (a :: b :: l) = a ++ ",\n".toList ++ block.go true (b :: l) :=
      fun _ _ _ => rfl
    rw [docNamedLines, ih, docNamed_eq]
    simp only [List.map_cons, e, List.append_assoc]

theorem docUnnamedList_eq : ∀ fs : List Field,
    docUnnamedList true fs = inline.go false ((fs.map undocUnnamed).map printUnnamedField) ∧
    (∀ g gs', fs = g :: gs' →
      docUnnamedList false fs = ", ".toList ++ inline.go false ((fs.map undocUnnamed).map printUnnamedField))
  | [] => ⟨rfl, by intro _ _ h; cases h⟩
  | [g] => ⟨by simp [docUnnamedList, inline.go, docUnnamed_eq], by
      intro _ _ _; simp [docUnnamedList, inline.go, docUnnamed_eq]⟩
  | g :: g' :: gs => by
    have ih := (docUnnamedList_eq (g' :: gs)).2 g' gs rfl
    have e : ∀ a b (l : List Text), inline.go false (a :: b :: l) = a ++ ", ".toList ++ inline.go false (b :: l) :=
      fun _ _ _ => rfl
    refine ⟨?_, ?_⟩
    · rw [docUnnamedList, ih, docUnnamed_eq]; simp only [List.map_cons, e]; simp
    · intro _ _ _
      rw [docUnnamedList, ih, docUnnamed_eq]; simp only [List.map_cons, e]; simp

/-- Fields that a schema can have. -/
def FieldsFine (fs : Fields) : Prop := fs.kind = .named → fs.fields ≠ []

/-- The fields of a struct or variant. -/
theorem docFields_eq (level : Nat) (fs : Fields) (h : FieldsFine fs) : printFields level (undocFields fs) =
    match fs.kind with
    | .named => " {\n".toList ++ docNamedLines (indent (level + 1)) fs.fields ++ (indent level ++ "}".toList)
    | .unnamed => "(".toList ++ docUnnamedList true fs.fields ++ ")".toList
    | .unit => [] := by
  unfold undocFields
  cases hk : fs.kind with
  | named =>
    simp only [printFields, block]
    rw [docNamedLines_eq _ _ (h hk)]
    simp
  | unnamed =>
    simp only [printFields, Parse.inline]
    rw [(docUnnamedList_eq _).1]
    simp
  | unit => rfl

theorem docStruct_eq (std : Std) (s : Struct) (h : FieldsFine s.fields) :
    docStruct s ++ ['\n'] = printStruct std 0 (undocStruct s) := by
  have e := docFields_eq 0 s.fields h
  unfold docStruct printStruct undocStruct
  rw [docGenerics_eq, e]
  cases s.fields.kind <;> simp [printComment, printAttributes, indent] <;> rfl

theorem docVariant_eq (v : Variant) (h : FieldsFine v.fields) :
    docVariant v = printVariant 1 (undocVariant v) ++ ",\n".toList := by
  have e := docFields_eq 1 v.fields h
  unfold docVariant printVariant undocVariant
  rw [e]
  cases v.fields.kind <;> simp [printComment, indent, printOptId, printId] <;> rfl

theorem docVariants_eq : ∀ vs : List Variant, vs ≠ [] → (∀ v ∈ vs, FieldsFine v.fields) →
    docVariants vs = block.go true ((vs.map undocVariant).map (printVariant 1)) ++ ['\n']
  | [], h, _ => absurd rfl h
  | [v], _, hf => by
    rw [docVariants, docVariants, docVariant_eq v (hf v (by simp))]; simp [block.go]
  | v :: w :: vs, _, hf => by
    have ih := docVariants_eq (w :: vs) (by simp) (fun x hx => hf x (List.mem_cons_of_mem _ hx))
    have e : ∀ a b (l : List Text), block.go true (a :: b :: l) = a ++ ",\n".toList ++ block.go true (b :: l) :=
      fun _ _ _ => rfl
    rw [docVariants, ih, docVariant_eq v (hf v (by simp))]
    simp only [List.map_cons, e, List.append_assoc]

theorem docEnum_eq (std : Std) (e : Enum) (hne : e.variants ≠ []) (h : ∀ v ∈ e.variants, FieldsFine v.fields) :
    docEnum e ++ ['\n'] = printEnum std 0 (undocEnum e) := by
  unfold docEnum printEnum undocEnum
  rw [docGenerics_eq, docVariants_eq _ hne h]
  simp [printComment, printAttributes, indent, block]

theorem docAlias_eq (a : TypeAlias) : docAlias a = printAlias 0 (undocAlias a) := by
  unfold docAlias printAlias undocAlias
  rw [docGenerics_eq, docType_eq]
  simp [printComment, indent]

theorem docConst_eq (std : Std) (c : Const) : docConst std c = printConst std 0 (undocConst c) := by
  unfold docConst printConst undocConst
  rw [docType_eq]
  simp [printComment, indent]

end Mabo.Doc
