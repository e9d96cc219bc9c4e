import Verif.Doc.TextLemmas
import Verif.Spec.Doc
/-! The text of a definition is read back as a definition with the same simplification. -/
namespace Mabo.Doc
open Mabo.Simplify Mabo.Spec
open Mabo.Parse hiding separated1
open Mabo.Compiler (nextId nextId_eq)

/-- The definition that the text on the page is a print of. -/
def undoc : Definition → Option Ast.Definition
  | .struct s => some (.struct (undocStruct s))
  | .enum e => some (.enum (undocEnum e))
  | .typeAlias a => some (.typeAlias (undocAlias a))
  | .const c => some (.const (undocConst c))
  | .module .. => none
  | .import .. => none

/-- The text of a definition. -/
def textOf (std : Std) : Definition → Option Text
  | .struct s => some (docStruct s)
  | .enum e => some (docEnum e)
  | .typeAlias a => some (docAlias a)
  | .const c => some (docConst std c)
  | .module .. => none
  | .import .. => none

/-! ### One definition as a schema -/

theorem schemaComment_def (std : Std) {d : Ast.Definition} (h : DefWf d) (r : Text) :
    schemaComment (printDef std 0 d ++ r) = .back := by
  obtain ⟨com, c, s, h1, h2, e⟩ := printDef_form std 0 d
  obtain ⟨ind', hi', hc⟩ := ws_comments (level := 0) (h1 h) (w := []) (by decide) (blank_indent 0) h2 (s := s ++ r)
  rw [e]
  simp only [List.append_assoc, List.cons_append, List.nil_append] at hc ⊢
  unfold schemaComment
  rw [bind_ok hc]
  refine bind_back ?_
  cases ind' with
  | nil => exact chr_back _ (by rintro rfl; exact absurd h2.1 (by decide))
  | cons x xs =>
    refine chr_back _ ?_
    rintro rfl
    exact absurd (hi' '\n' (by simp)) (by decide)

theorem parseSchema_def (std : Std) {d : Ast.Definition} (h : DefWf d) (hl : ∀ l ∈ defLiterals d, LitOk std l)
    {w : Text} (hw : ∀ c ∈ w, isMulti c = true) : parseSchema std (printDef std 0 d ++ w) = some ⟨[], [d]⟩ := by
  have hd := parseDefinition_print std d h hl 0 [] w (by simp)
  rw [List.nil_append] at hd
  have hw2 : ∀ c ∈ defTail d ++ w, isMulti c = true := fun c hc => by
    rcases List.mem_append.1 hc with hc | hc
    · exact defTail_multi d c hc
    · exact hw c hc
  obtain ⟨w', hw', e⟩ := parseTop_print std [] (by rw [DefsWf]; trivial) (by intro l h; cases h) (defTail d ++ w) hw2
  have e' : many (parseDefinition std) (defTail d ++ w) = .ok [] w' := by
    have : (defTail d ++ w) ++ printTop std [] = defTail d ++ w := List.append_nil _
    rwa [this] at e
  have hm := many_ok (eats_parseDefinition std) hd e'
  have e0 := opt_none (schemaComment_def std h w)
  unfold schemaComment at e0
  have hm0 : multi0 w' = .ok w' [] := by
    have := takeWhile_ok (n := 0) hw' (stop_nil isMulti) (by omega)
    rwa [List.append_nil] at this
  unfold parseSchema schemaParser
  rw [bind_ok e0, bind_ok hm, bind_ok hm0]
  rfl

/-! ### Well-formed and with the same simplification -/

theorem nextId_again {checked : Bool} {g : BitVec 32} {o : Option (BitVec 32)} {p : BitVec 32 × BitVec 32}
    (h : nextId checked g o = some p) (g' : BitVec 32) : nextId checked g' (some p.1) = some (p.1, p.1 + 1) := by
  rw [nextId_eq] at h ⊢
  simp only [Option.getD_some] at h ⊢
  split at h
  · cases h
  · rename_i hc
    injection h with h
    subst h
    rw [if_neg hc]

theorem named_inv {checked : Bool} : ∀ {fs : List Ast.NamedField} {g : BitVec 32} {gs : List Field},
    simplifyNamed checked g fs = some gs →
    (∀ g', simplifyNamed checked g' (gs.map undocNamed) = some (gs.map fun f => { f with comment := [] })) ∧
    (fs ≠ [] → gs ≠ []) ∧
    ((∀ f ∈ fs, NamedFieldWf f) → ∀ f ∈ gs.map undocNamed, NamedFieldWf f)
  | [], g, gs, h => by
    injection h with h; subst h
    exact ⟨fun _ => rfl, fun h => absurd rfl h, fun _ f hf => by cases hf⟩
  | f :: fs, g, gs, h => by
    rw [simplifyNamed] at h
    cases hn : nextId checked g f.id with
    | none => rw [hn] at h; cases h
    | some p =>
      rw [hn] at h
      cases hr : simplifyNamed checked p.2 fs with
      | none => simp [hr] at h
      | some rest =>
        have ⟨h1, _, h3⟩ := named_inv hr
        simp only [hr, Option.bind_eq_bind, Option.bind_some, Option.pure_def, Option.some.injEq] at h
        subst h
        refine ⟨fun g' => ?_, fun _ => by simp, fun hf => ?_⟩
        · rw [List.map_cons, simplifyNamed]
          have := nextId_again hn g'
          show (nextId checked g' (some p.1)).bind _ = _
          rw [this]
          simp only [Option.bind_some, h1, Option.bind_eq_bind, Option.pure_def, List.map_cons, undocNamed,
            simplify_undocType]
        · intro x hx
          rw [List.map_cons] at hx
          rcases List.mem_cons.1 hx with rfl | hx
          · have ⟨_, b, c⟩ := hf f (by simp)
            exact ⟨fun _ h => (by cases h), b, undocType_ok _ c⟩
          · exact h3 (fun y hy => hf y (List.mem_cons_of_mem _ hy)) x hx

theorem unnamed_inv {checked : Bool} : ∀ {fs : List Ast.UnnamedField} {i : Nat} {g : BitVec 32} {gs : List Field},
    simplifyUnnamed checked i g fs = some gs →
    (∀ g', simplifyUnnamed checked i g' (gs.map undocUnnamed) = some (gs.map fun f => { f with comment := [] })) ∧
    (fs ≠ [] → gs ≠ []) ∧
    ((∀ f ∈ fs, TypeOk f.ty) → ∀ f ∈ gs.map undocUnnamed, TypeOk f.ty)
  | [], i, g, gs, h => by
    injection h with h; subst h
    exact ⟨fun _ => rfl, fun h => absurd rfl h, fun _ f hf => by cases hf⟩
  | f :: fs, i, g, gs, h => by
    rw [simplifyUnnamed] at h
    cases hn : nextId checked g f.id with
    | none => rw [hn] at h; cases h
    | some p =>
      rw [hn] at h
      cases hr : simplifyUnnamed checked (i + 1) p.2 fs with
      | none => simp [hr] at h
      | some rest =>
        have ⟨h1, _, h3⟩ := unnamed_inv hr
        simp only [hr, Option.bind_eq_bind, Option.bind_some, Option.pure_def, Option.some.injEq] at h
        subst h
        refine ⟨fun g' => ?_, fun _ => by simp, fun hf => ?_⟩
        · rw [List.map_cons, simplifyUnnamed]
          have := nextId_again hn g'
          show (nextId checked g' (some p.1)).bind _ = _
          rw [this]
          simp only [Option.bind_some, h1, Option.bind_eq_bind, Option.pure_def, List.map_cons, undocUnnamed,
            simplify_undocType]
        · intro x hx
          rw [List.map_cons] at hx
          rcases List.mem_cons.1 hx with rfl | hx
          · exact undocType_ok _ (hf f (by simp))
          · exact h3 (fun y hy => hf y (List.mem_cons_of_mem _ hy)) x hx

theorem fields_inv {checked : Bool} {fs : Ast.Fields} {gs : Fields} (h : simplifyFields checked fs = some gs)
    (hw : FieldsWf fs) : simplifyFields checked (undocFields gs) = some (bareFields gs) ∧ FieldsWf (undocFields gs) ∧
      FieldsFine gs := by
  cases fs with
  | named fs t =>
    rw [simplifyFields] at h
    cases hr : simplifyNamed checked Compiler.idStart fs with
    | none => simp [hr] at h
    | some rest =>
      simp only [hr, Option.bind_eq_bind, Option.bind_some, Option.pure_def, Option.some.injEq] at h
      subst h
      have ⟨h1, h2, h3⟩ := named_inv hr
      refine ⟨?_, ⟨?_, h3 hw.2⟩, fun _ => h2 hw.1⟩
      · simp only [undocFields, simplifyFields, h1]; rfl
      · have := h2 hw.1
        simpa using this
  | unnamed fs t =>
    rw [simplifyFields] at h
    cases hr : simplifyUnnamed checked 0 Compiler.idStart fs with
    | none => simp [hr] at h
    | some rest =>
      simp only [hr, Option.bind_eq_bind, Option.bind_some, Option.pure_def, Option.some.injEq] at h
      subst h
      have ⟨h1, h2, h3⟩ := unnamed_inv hr
      refine ⟨?_, ⟨?_, h3 hw.2⟩, fun hk => by cases hk⟩
      · simp only [undocFields, simplifyFields, h1]; rfl
      · have := h2 hw.1
        simpa using this
  | unit =>
    injection h with h; subst h
    exact ⟨rfl, trivial, fun hk => by cases hk⟩

theorem variants_inv {checked : Bool} : ∀ {vs : List Ast.Variant} {g : BitVec 32} {ws : List Variant},
    simplifyVariants checked g vs = some ws → (∀ v ∈ vs, VariantWf v) →
    (∀ g', simplifyVariants checked g' (ws.map undocVariant) =
      some (ws.map fun v => { v with comment := [], fields := bareFields v.fields })) ∧
    (vs ≠ [] → ws ≠ []) ∧ (∀ v ∈ ws.map undocVariant, VariantWf v) ∧ (∀ v ∈ ws, FieldsFine v.fields)
  | [], g, gs, h, _ => by
    injection h with h; subst h
    refine ⟨fun _ => rfl, fun h => absurd rfl h, fun f hf => ?_, fun f hf => ?_⟩ <;> cases hf
  | v :: vs, g, gs, h, hw => by
    rw [simplifyVariants] at h
    cases hf : simplifyFields checked v.fields with
    | none => simp [hf] at h
    | some fs =>
      rw [hf] at h
      cases hn : nextId checked g v.id with
      | none => simp [hn] at h
      | some p =>
        cases hr : simplifyVariants checked p.2 vs with
        | none => simp [hn, hr] at h
        | some rest =>
          have hv := hw v (by simp)
          have ⟨h1, _, h3, h4⟩ := variants_inv hr (fun x hx => hw x (List.mem_cons_of_mem _ hx))
          have ⟨f1, f2, f3⟩ := fields_inv hf hv.2.2
          simp only [hn, hr, Option.bind_eq_bind, Option.bind_some, Option.pure_def, Option.some.injEq] at h
          subst h
          refine ⟨fun g' => ?_, fun _ => by simp, fun x hx => ?_, fun x hx => ?_⟩
          · rw [List.map_cons, simplifyVariants]
            have := nextId_again hn g'
            show (simplifyFields checked (undocFields fs)).bind _ = _
            rw [f1]
            show (nextId checked g' (some p.1)).bind _ = _
            rw [this]
            simp only [Option.bind_some, h1, Option.bind_eq_bind, Option.pure_def, List.map_cons, undocVariant]
          · rw [List.map_cons] at hx
            rcases List.mem_cons.1 hx with rfl | hx
            · exact ⟨fun _ h => (by cases h), hv.2.1, f2⟩
            · exact h3 x hx
          · rcases List.mem_cons.1 hx with rfl | hx
            · exact f3
            · exact h4 x hx

theorem typeParams_bare {gs : List String} {t : Bool} (h : TypeParamsWf gs t) : TypeParamsWf gs false :=
  ⟨h.1, fun _ => rfl⟩

theorem undocFields_ids (fs : Fields) : ∀ o ∈ givenIds (undocFields fs), o.isSome = true := by
  intro o ho
  unfold undocFields at ho
  cases hk : fs.kind <;> rw [hk] at ho <;> simp only [givenIds, List.map_map, List.mem_map, Function.comp] at ho
  · obtain ⟨f, _, rfl⟩ := ho; rfl
  · obtain ⟨f, _, rfl⟩ := ho; rfl
  · cases ho

/-- The text on the page of a definition. -/
theorem text_reads (std : Std) {checked : Bool} {d : Ast.Definition} {e : Definition} (hd : DefWf d)
    (he : simplifyDefinition checked d = some e) (hl : ∀ c, e = .const c → LitOk std c.value)
    {x : Text} (hx : textOf std e = some x) : ∃ a, parseSchema std (x ++ ['\n']) = some ⟨[], [a]⟩ ∧
      simplifyDefinition checked a = some (bare e) ∧ Numbered a := by
  have hnl : ∀ c ∈ ['\n'], isMulti c = true := by decide
  have hnil : ∀ c ∈ ([] : Text), isMulti c = true := by simp
  have cw : CommentWf [] := fun _ h => (by cases h)
  cases d with
  | module c n ds =>
    rw [simplifyDefinition] at he
    cases h : simplifyDefinitions checked ds with
    | none => simp [h] at he
    | some es => simp [h] at he; subst he; cases hx
  | struct s =>
    rw [simplifyDefinition] at he
    cases h : simplifyFields checked s.fields with
    | none => simp [h] at he
    | some fs =>
      simp only [h, Option.bind_eq_bind, Option.bind_some, Option.pure_def, Option.some.injEq] at he
      subst he
      rw [DefWf] at hd
      have ⟨f1, f2, f3⟩ := fields_inv h hd.2.2.2.2
      injection hx with hx
      subst hx
      refine ⟨.struct (undocStruct ⟨s.comment, s.name, s.generics, fs⟩), ?_, ?_, ?_⟩
      · rw [docStruct_eq std _ f3]
        have := parseSchema_def std (d := .struct (undocStruct ⟨s.comment, s.name, s.generics, fs⟩)) (w := [])
          (by rw [DefWf]; exact ⟨cw, trivial, hd.2.2.1, typeParams_bare hd.2.2.2.1, f2⟩)
          (by intro l hm; cases hm) hnil
        rw [List.append_nil] at this
        exact this
      · simp only [simplifyDefinition, undocStruct, f1]; rfl
      · intro l hm
        cases hm with
        | fields hf => cases hf; exact undocFields_ids fs
  | enum en =>
    rw [simplifyDefinition] at he
    cases h : simplifyVariants checked Compiler.idStart en.variants with
    | none => simp [h] at he
    | some vs =>
      simp only [h, Option.bind_eq_bind, Option.bind_some, Option.pure_def, Option.some.injEq] at he
      subst he
      rw [DefWf] at hd
      have ⟨f1, f2, f3, f4⟩ := variants_inv h hd.2.2.2.2.2
      injection hx with hx
      subst hx
      have hne : vs ≠ [] := f2 hd.2.2.2.2.1
      refine ⟨.enum (undocEnum ⟨en.comment, en.name, en.generics, vs⟩), ?_, ?_, ?_⟩
      · rw [docEnum_eq std _ hne f4]
        have := parseSchema_def std (d := .enum (undocEnum ⟨en.comment, en.name, en.generics, vs⟩)) (w := [])
          (by rw [DefWf]; exact ⟨cw, trivial, hd.2.2.1, typeParams_bare hd.2.2.2.1, (by
                show vs.map undocVariant ≠ []
                simpa using hne), f3⟩)
          (by intro l hm; cases hm) hnil
        rw [List.append_nil] at this
        exact this
      · simp only [simplifyDefinition, undocEnum, f1]; rfl
      · intro l hm o ho
        cases hm with
        | fields hf =>
          cases hf with
          | variant _ v hv =>
            obtain ⟨v', _, rfl⟩ := List.mem_map.1 hv
            exact undocFields_ids _ o ho
        | variants =>
          simp only [undocEnum, List.map_map, List.mem_map, Function.comp] at ho
          obtain ⟨v, _, rfl⟩ := ho; rfl
  | typeAlias al =>
    injection he with he; subst he
    rw [DefWf] at hd
    injection hx with hx; subst hx
    refine ⟨.typeAlias (undocAlias ⟨al.comment, al.name, al.generics, simplifyType al.target⟩), ?_, ?_, ?_⟩
    · rw [docAlias_eq]
      exact parseSchema_def std (d := .typeAlias (undocAlias _))
        (by rw [DefWf]; exact ⟨cw, hd.2.1, typeParams_bare hd.2.2.1, undocType_ok _ hd.2.2.2⟩) (by intro l hm; cases hm) hnl
    · simp only [simplifyDefinition, undocAlias, simplify_undocType]; rfl
    · intro l hm; cases hm with | fields hf => cases hf
  | const k =>
    injection he with he; subst he
    rw [DefWf] at hd
    injection hx with hx; subst hx
    refine ⟨.const (undocConst ⟨k.comment, k.name, simplifyType k.ty, k.value⟩), ?_, ?_, ?_⟩
    · rw [docConst_eq]
      refine parseSchema_def std (d := .const (undocConst _))
        (by rw [DefWf]; exact ⟨cw, hd.2.1, undocType_ok _ hd.2.2⟩) ?_ hnl
      intro l hm
      rw [defLiterals] at hm
      rw [List.mem_singleton.1 hm]
      exact hl _ rfl
    · simp only [simplifyDefinition, undocConst, simplify_undocType]; rfl
    · intro l hm; cases hm with | fields hf => cases hf
  | «import» i => injection he with he; subst he; cases hx

end Mabo.Doc
