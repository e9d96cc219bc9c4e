import Verif.Doc.Links
import Verif.Props.Meta
import Verif.Props.Schema
import Verif.Props.Validate
/-!
C52–C54: the documentation written by `mabo doc`: the text of definitions, the pages and their links.
The specification is in `Spec/Doc.lean`. All theorems hold for every choice of the standard-library parts in `Std`, with
and without overflow checks, for every output directory and every accepted schema file.
-/
namespace Mabo.Props
open Mabo.Spec Mabo.Doc
open Mabo.Parse (Std Text parseSchema)
open Mabo.Simplify (simplifySchema simplifyDefinition simplifyFields simplifyDefinition_spec)
open Mabo.Compiler (validateSchema)

/-- `mabo doc` on a project with the file `stem.mabo` of the given text succeeds and writes `files`; the text is read as
`s`. -/
structure Documented (std : Std) (checked : Bool) (out : List Text) (stem : String) (text : Text) (s : Ast.Schema)
    (files : List (List Text × Page)) : Prop where
  plain : '/' ∉ stem.toList
  read : parseSchema std text = some s
  run : doc std checked out [(stem, text)] = (.ok (), files)

section
variable {std : Std} {checked : Bool} {out : List Text} {stem : String} {text : Text} {s : Ast.Schema}
  {files : List (List Text × Page)}

theorem documented_inv (h : Documented std checked out stem text s files) :
    ∃ t, simplifySchema checked s = some t ∧ files = docSchema std checked out stem t ∧ SchemaWf s := by
  have hr := h.run
  simp only [doc, h.read] at hr
  cases ht : simplifySchema checked s with
  | none => rw [ht] at hr; simp at hr
  | some t =>
    rw [ht] at hr
    simp only [List.append_nil, Prod.mk.injEq, true_and] at hr
    exact ⟨t, rfl, hr.symm, (Parse.parseSchema_inv std h.read).1⟩

/-! ## C52: the text of structs, enums and aliases -/

/-- C52. The page of every struct, enum and type alias, at any depth of modules, shows a text that is itself a schema with
one definition. That definition has every number written out, and is the one of the schema: name, type parameters,
variants, fields, their types and numbers are the same, in the same order (after simplification, apart from comments). -/
theorem C52_definition_text (h : Documented std checked out stem text s files) {mods : List String}
    {ds : List Ast.Definition} (hm : ModuleAt s mods ds) {d : Ast.Definition} (hd : d ∈ ds)
    (hk : (∃ x, d = .struct x) ∨ (∃ x, d = .enum x) ∨ ∃ x, d = .typeAlias x) :
    ∃ f pg shown e a, pageFile d = some f ∧ (docDir out stem mods ++ f, pg) ∈ files ∧ pg.definition = some shown ∧
      parseSchema std (shown ++ ['\n']) = some { definitions := [a] } ∧ Numbered a ∧
      simplifyDefinition checked d = some e ∧ simplifyDefinition checked a = some (bare e) := by
  obtain ⟨t, ht, rfl, hw⟩ := documented_inv h
  have hf : ∃ f, pageFile d = some f := by
    rcases hk with ⟨x, rfl⟩ | ⟨x, rfl⟩ | ⟨x, rfl⟩ <;> exact ⟨_, rfl⟩
  obtain ⟨f, hf⟩ := hf
  obtain ⟨e, pg, he, hp, hmem⟩ := page_exists (std := std) (out := out) ht hw.2 h.plain hm hd hf
  have hwd := defsWf_mem (module_files (std := std) (out := out) ht hw.2 h.plain hm).1 d hd
  have hx : ∃ x, textOf std e = some x ∧ pg.definition = some x ∧ ∀ c, e ≠ .const c := by
    rcases hk with ⟨x, rfl⟩ | ⟨x, rfl⟩ | ⟨x, rfl⟩
    · rw [simplifyDefinition] at he
      cases h1 : simplifyFields checked x.fields with
      | none => simp [h1] at he
      | some fs =>
        simp only [h1, Option.bind_eq_bind, Option.bind_some, Option.pure_def, Option.some.injEq] at he
        subst he; injection hp with hp; subst hp; exact ⟨_, rfl, rfl, by simp⟩
    · rw [simplifyDefinition] at he
      cases h1 : Simplify.simplifyVariants checked Compiler.idStart x.variants with
      | none => simp [h1] at he
      | some fs =>
        simp only [h1, Option.bind_eq_bind, Option.bind_some, Option.pure_def, Option.some.injEq] at he
        subst he; injection hp with hp; subst hp; exact ⟨_, rfl, rfl, by simp⟩
    · injection he with he; subst he; injection hp with hp; subst hp; exact ⟨_, rfl, rfl, by simp⟩
  obtain ⟨x, hx, hpx, hnc⟩ := hx
  obtain ⟨a, h1, h2, h3⟩ := text_reads std hwd he (fun c hc => absurd hc (hnc c)) hx
  exact ⟨f, pg, x, e, a, hf, hmem, hpx, h1, h3, he, h2⟩

/-- The lines of a list of fields show the fields: names, numbers and comments, and a text that is read as the type. -/
def Shows (lines : List Row) (fs : List Simplify.Field) : Prop :=
  lines.map Row.name = fs.map (·.name) ∧ lines.map Row.id = fs.map (·.id) ∧
    lines.map Row.comment = fs.map (fun f => f.comment.flatMap (·.toList ++ ['\n'])) ∧
    ∀ (i : Nat) (r : Row) (f : Simplify.Field), lines[i]? = some r → fs[i]? = some f →
      ∃ a, Parse.parseType r.ty = .ok a [] ∧ Simplify.simplifyType a = f.ty

theorem rows_show {fs : List Simplify.Field} (h : ∀ f ∈ fs, TypeOk (undocType f.ty)) : Shows (rows fs) fs := by
  have hc : ∀ c : List String, mergeComments c = c.flatMap (·.toList ++ ['\n']) := by
    intro c
    induction c with
    | nil => rfl
    | cons l ls ih => simp [mergeComments, ih]
  refine ⟨by simp [rows], by simp [rows], by simp [rows, hc], fun i r f hr hf => ?_⟩
  simp only [rows, List.getElem?_map, hf, Option.map_some, Option.some.injEq] at hr
  subst hr
  have := Parse.parseType_print (undocType f.ty) (h f (List.mem_of_getElem? hf)) [] (fun c hc => by cases hc)
  rw [List.append_nil] at this
  exact ⟨undocType f.ty, by rw [docType_eq]; exact this, simplify_undocType _⟩

theorem fields_types {fs : Ast.Fields} {gs : Simplify.Fields} (h : simplifyFields checked fs = some gs) (hw : FieldsWf fs) :
    ∀ f ∈ gs.fields, TypeOk (undocType f.ty) := by
  cases fs with
  | named fs tr =>
    rw [simplifyFields] at h
    cases hr : Simplify.simplifyNamed checked Compiler.idStart fs with
    | none => simp [hr] at h
    | some rest =>
      simp only [hr, Option.bind_eq_bind, Option.bind_some, Option.pure_def, Option.some.injEq] at h
      subst h
      exact fun f hf => ((named_inv hr).2.2 hw.2 (undocNamed f) (List.mem_map_of_mem hf)).2.2
  | unnamed fs tr =>
    rw [simplifyFields] at h
    cases hr : Simplify.simplifyUnnamed checked 0 Compiler.idStart fs with
    | none => simp [hr] at h
    | some rest =>
      simp only [hr, Option.bind_eq_bind, Option.bind_some, Option.pure_def, Option.some.injEq] at h
      subst h
      exact fun f hf => (unnamed_inv hr).2.2 hw.2 (undocUnnamed f) (List.mem_map_of_mem hf)
  | unit => injection h with h; subst h; intro f hf; cases hf

/-- C52. The list of fields on the page of a struct shows its fields. -/
theorem C52_field_list (h : Documented std checked out stem text s files) {mods : List String}
    {ds : List Ast.Definition} (hm : ModuleAt s mods ds) {x : Ast.Struct} (hd : .struct x ∈ ds) :
    ∃ f pg gs, pageFile (.struct x) = some f ∧ (docDir out stem mods ++ f, pg) ∈ files ∧
      simplifyFields checked x.fields = some gs ∧ Shows pg.fields gs.fields := by
  obtain ⟨t, ht, rfl, hw⟩ := documented_inv h
  obtain ⟨e, pg, he, hp, hmem⟩ := page_exists (std := std) (out := out) ht hw.2 h.plain hm hd rfl
  have hwd := defsWf_mem (module_files (std := std) (out := out) ht hw.2 h.plain hm).1 _ hd
  rw [DefWf] at hwd
  rw [simplifyDefinition] at he
  cases h1 : simplifyFields checked x.fields with
  | none => simp [h1] at he
  | some fs =>
    simp only [h1, Option.bind_eq_bind, Option.bind_some, Option.pure_def, Option.some.injEq] at he
    subst he; injection hp with hp; subst hp
    exact ⟨_, _, fs, rfl, hmem, rfl, rows_show (fields_types h1 hwd.2.2.2.2)⟩

/-- C52. The list on the page of an enum shows its variants with their numbers and, for each, its fields. -/
theorem C52_variant_list (h : Documented std checked out stem text s files) {mods : List String}
    {ds : List Ast.Definition} (hm : ModuleAt s mods ds) {x : Ast.Enum} (hd : .enum x ∈ ds) :
    ∃ f pg ws, pageFile (.enum x) = some f ∧ (docDir out stem mods ++ f, pg) ∈ files ∧
      Simplify.simplifyVariants checked Compiler.idStart x.variants = some ws ∧
      pg.variants.map (fun v => (v.1, v.2.1)) = ws.map (fun w => (w.name, w.id)) ∧
      ∀ (i : Nat) v w, pg.variants[i]? = some v → ws[i]? = some w → Shows v.2.2.2 w.fields.fields := by
  obtain ⟨t, ht, rfl, hw⟩ := documented_inv h
  obtain ⟨e, pg, he, hp, hmem⟩ := page_exists (std := std) (out := out) ht hw.2 h.plain hm hd rfl
  have hwd := defsWf_mem (module_files (std := std) (out := out) ht hw.2 h.plain hm).1 _ hd
  rw [DefWf] at hwd
  rw [simplifyDefinition] at he
  cases h1 : Simplify.simplifyVariants checked Compiler.idStart x.variants with
  | none => simp [h1] at he
  | some ws =>
    simp only [h1, Option.bind_eq_bind, Option.bind_some, Option.pure_def, Option.some.injEq] at he
    subst he; injection hp with hp; subst hp
    refine ⟨_, _, ws, rfl, hmem, rfl, by simp [enumPage], fun i v w hv hw' => ?_⟩
    simp only [enumPage, List.getElem?_map, hw', Option.map_some, Option.some.injEq] at hv
    subst hv
    have key : ∀ {vs : List Ast.Variant} {g : BitVec 32} {ws : List Simplify.Variant},
        Simplify.simplifyVariants checked g vs = some ws → (∀ v ∈ vs, VariantWf v) → ∀ w ∈ ws,
        ∃ v ∈ vs, simplifyFields checked v.fields = some w.fields := by
      intro vs
      induction vs with
      | nil => intro g ws h _ w hw; injection h with h; subst h; cases hw
      | cons v vs ih =>
        intro g ws h hwf w hw
        rw [Simplify.simplifyVariants] at h
        cases hf : simplifyFields checked v.fields with
        | none => simp [hf] at h
        | some fs =>
          rw [hf] at h
          cases hn : Compiler.nextId checked g v.id with
          | none => simp [hn] at h
          | some p =>
            cases hr : Simplify.simplifyVariants checked p.2 vs with
            | none => simp [hn, hr] at h
            | some rest =>
              simp only [hn, hr, Option.bind_eq_bind, Option.bind_some, Option.pure_def, Option.some.injEq] at h
              subst h
              rcases List.mem_cons.1 hw with rfl | hw
              · exact ⟨v, by simp, hf⟩
              · obtain ⟨v', hv', e⟩ := ih hr (fun y hy => hwf y (List.mem_cons_of_mem _ hy)) w hw
                exact ⟨v', List.mem_cons_of_mem _ hv', e⟩
    obtain ⟨v, hv, hvf⟩ := key h1 hwd.2.2.2.2.2 w (List.mem_of_getElem? hw')
    show Shows (if w.fields.kind = .unit then [] else rows w.fields.fields) w.fields.fields
    have hty := fields_types hvf (hwd.2.2.2.2.2 v hv).2.2
    by_cases hk : w.fields.kind = .unit
    · rw [if_pos hk]
      cases hvv : v.fields with
      | unit => rw [hvv] at hvf; injection hvf with hvf; rw [← hvf]; exact ⟨rfl, rfl, rfl, fun i r f hr => by cases hr⟩
      | named fs tr =>
        rw [hvv, simplifyFields] at hvf
        cases hr : Simplify.simplifyNamed checked Compiler.idStart fs with
        | none => simp [hr] at hvf
        | some rest =>
          simp only [hr, Option.bind_eq_bind, Option.bind_some, Option.pure_def, Option.some.injEq] at hvf
          rw [← hvf] at hk; cases hk
      | unnamed fs tr =>
        rw [hvv, simplifyFields] at hvf
        cases hr : Simplify.simplifyUnnamed checked 0 Compiler.idStart fs with
        | none => simp [hr] at hvf
        | some rest =>
          simp only [hr, Option.bind_eq_bind, Option.bind_some, Option.pure_def, Option.some.injEq] at hvf
          rw [← hvf] at hk; cases hk
    · rw [if_neg hk]; exact rows_show hty

theorem simplified_ids {fs : Ast.Fields} {gs : Simplify.Fields} (h : simplifyFields true fs = some gs) :
    NoneIsMax (gs.fields.map (·.id)) := by
  have ⟨h1, h2⟩ := Simplify.simplifyFields_spec true fs
  have hok : true = true → NoOverflow (givenIds fs) := Classical.byContradiction fun hc => by
    rw [h2 hc] at h; cases h
  exact hok rfl _ (C24_generated_field_ids true fs gs h)

/-- C52. With overflow checks, the "next free ID" of a struct with fields is the least positive number above all numbers of
its fields, and computing it does not panic. -/
theorem C52_next_id (h : Documented std true out stem text s files) {mods : List String}
    {ds : List Ast.Definition} (hm : ModuleAt s mods ds) {x : Ast.Struct} (hd : .struct x ∈ ds) :
    ∃ f pg gs, pageFile (.struct x) = some f ∧ (docDir out stem mods ++ f, pg) ∈ files ∧
      simplifyFields true x.fields = some gs ∧
      (gs.kind = .unit → pg.nextId = some none) ∧
      (gs.kind ≠ .unit → ∃ next, pg.nextId = some (some next) ∧ (∀ f ∈ gs.fields, f.id.toNat < next.toNat) ∧
        ∀ other : BitVec 32, 1 ≤ other.toNat → (∀ f ∈ gs.fields, f.id.toNat < other.toNat) → next.toNat ≤ other.toNat) := by
  obtain ⟨t, ht, rfl, hw⟩ := documented_inv h
  obtain ⟨e, pg, he, hp, hmem⟩ := page_exists (std := std) (out := out) ht hw.2 h.plain hm hd rfl
  rw [simplifyDefinition] at he
  cases h1 : simplifyFields true x.fields with
  | none => simp [h1] at he
  | some fs =>
    simp only [h1, Option.bind_eq_bind, Option.bind_some, Option.pure_def, Option.some.injEq] at he
    subst he; injection hp with hp; subst hp
    refine ⟨_, _, fs, rfl, hmem, rfl, fun hk => ?_, fun hk => ?_⟩
    · simp [structPage, Meta.nextFieldId, hk]
    · obtain ⟨n, a, b, _, c⟩ := C34_next_field_id true fs hk (simplified_ids h1)
      exact ⟨n, a, b, c⟩

/-! ## C54: the text of constants -/

/-- C54. The page of a constant shows a text that is a schema with that constant only (name, type and value), if its value
survives printing. Missing: strings with NUL and floats printed without a point. -/
theorem C54_constant_text_partial (h : Documented std checked out stem text s files) {mods : List String}
    {ds : List Ast.Definition} (hm : ModuleAt s mods ds) {c : Ast.Const} (hd : .const c ∈ ds)
    (hs : ∀ v, c.value = .string v → Char.ofNat 0 ∉ v.toList)
    (hfl : ∀ f, c.value = .float f → FloatOk std.showFloat std.readFloat f) :
    ∃ f pg shown e a, pageFile (.const c) = some f ∧ (docDir out stem mods ++ f, pg) ∈ files ∧ pg.definition = some shown ∧
      parseSchema std (shown ++ ['\n']) = some { definitions := [a] } ∧
      simplifyDefinition checked (.const c) = some e ∧ simplifyDefinition checked a = some (bare e) := by
  obtain ⟨t, ht, rfl, hw⟩ := documented_inv h
  obtain ⟨e, pg, he, hp, hmem⟩ := page_exists (std := std) (out := out) ht hw.2 h.plain hm hd rfl
  have hwd := defsWf_mem (module_files (std := std) (out := out) ht hw.2 h.plain hm).1 _ hd
  have hlit : LiteralValid c.value := by
    have hv := (Parse.parseSchema_inv std h.read).2
    have key : ∀ {mods ds}, ModuleAt s mods ds → ∀ l ∈ defsLiterals ds, l ∈ schemaLiterals s := by
      have mem : ∀ {ds : List Ast.Definition} {d}, d ∈ ds → ∀ l ∈ defLiterals d, l ∈ defsLiterals ds := by
        intro ds
        induction ds with
        | nil => intro d hd; cases hd
        | cons x xs ih =>
          intro d hd l hl
          rw [defsLiterals]
          rcases List.mem_cons.1 hd with rfl | hd
          · exact List.mem_append.2 (.inl hl)
          · exact List.mem_append.2 (.inr (ih hd l hl))
      intro mods ds hma
      induction hma with
      | root => intro l hl; exact hl
      | module _ hmem ih => intro l hl; exact ih l (mem hmem l (by rw [defLiterals]; exact hl))
    have : c.value ∈ defsLiterals ds := by
      have mem : ∀ {ds : List Ast.Definition}, .const c ∈ ds → c.value ∈ defsLiterals ds := by
        intro ds
        induction ds with
        | nil => intro hd; cases hd
        | cons x xs ih =>
          intro hd
          rw [defsLiterals]
          rcases List.mem_cons.1 hd with rfl | hd
          · exact List.mem_append.2 (.inl (by rw [defLiterals]; simp))
          · exact List.mem_append.2 (.inr (ih hd))
      exact mem hd
    exact hv _ (key hm _ this)
  have he' : e = .const ⟨c.comment, c.name, Simplify.simplifyType c.ty, c.value⟩ := by
    injection he with he; exact he.symm
  subst he'
  injection hp with hp; subst hp
  obtain ⟨a, h1, h2, _⟩ := text_reads std hwd he
    (fun c' hc => by injection hc with hc; subst hc; exact litOk_of_valid hlit hs hfl) rfl
  exact ⟨_, _, _, _, a, rfl, hmem, rfl, h1, he, h2⟩

/-! ## C53: pages and links -/

/-- C53. The written files are exactly the page of the schema and one page for each definition, at any depth of modules,
that is no import, each at its place. -/
theorem C53_pages (h : Documented std checked out stem text s files) (p : List Text) :
    p ∈ files.map Prod.fst ↔ p = docDir out stem [] ++ ["index.html".toList] ∨
      ∃ mods ds d f, ModuleAt s mods ds ∧ d ∈ ds ∧ pageFile d = some f ∧ p = docDir out stem mods ++ f := by
  obtain ⟨t, ht, rfl, hw⟩ := documented_inv h
  constructor
  · intro hp
    obtain ⟨x, hx, rfl⟩ := List.mem_map.1 hp
    rcases page_known ht hw.2 h.plain hx with rfl | ⟨mods, ds, d, f, e, pg, h1, h2, h3, h4, h5, rfl⟩
    · exact .inl rfl
    · exact .inr ⟨mods, ds, d, f, h1, h2, h3, rfl⟩
  · rintro (rfl | ⟨mods, ds, d, f, h1, h2, h3, rfl⟩)
    · exact List.mem_map.2 ⟨_, index_exists h.plain, rfl⟩
    · obtain ⟨e, pg, _, _, hm⟩ := page_exists (std := std) (out := out) ht hw.2 h.plain h1 h2 h3
      exact List.mem_map.2 ⟨_, hm, rfl⟩

/-- C53. For a schema that passes validation, no file is written twice: every definition keeps its page. -/
theorem C53_distinct (h : Documented std checked out stem text s files) (hv : validateSchema checked s = .ok) :
    (files.map Prod.fst).Nodup := by
  obtain ⟨t, ht, rfl, hw⟩ := documented_inv h
  exact docSchema_nodup ht hw.2 h.plain ((C25_validate_exact checked s).1 hv).1.names.scopes

/-- The frame of the page of a definition. -/
theorem page_frame {mods : List String} {d : Ast.Definition} {f : List Text} {e : Simplify.Definition} {pg : Page}
    (hf : pageFile d = some f) (he : simplifyDefinition checked d = some e)
    (hp : pageOf std checked (stem :: mods) e = some pg) :
    ∃ full, (docDir out stem mods ++ f).dropLast = docDir out stem full ∧ pg.stylesheet = stylesheet (stem :: full) ∧
      pg.trail = trailFrom (full.length + 1) 0 ((stem :: full).take (mods.length + 1)) ∧ full.take mods.length = mods ∧
      some pg.title = defName d := by
  have item : ∀ w : Text, (docDir out stem mods ++ [w]).dropLast = docDir out stem mods := fun w => by simp
  have trail : trailFrom (stem :: mods).length 0 (stem :: mods) =
      trailFrom (mods.length + 1) 0 ((stem :: mods).take (mods.length + 1)) := by
    rw [List.take_of_length_le (by simp)]; rfl
  cases d with
  | module c n ds =>
    obtain ⟨es, _, rfl⟩ := simplify_module checked he
    injection hf with hf; subst hf
    injection hp with hp; subst hp
    refine ⟨mods ++ [n], ?_, rfl, ?_, by simp, rfl⟩
    · rw [docDir_snoc]
      have : docDir out stem mods ++ [n.toList, "index.html".toList] =
          (docDir out stem mods ++ [n.toList]) ++ ["index.html".toList] := by simp
      rw [this, List.dropLast_concat]
    · simp [modulePage]
  | struct x =>
    injection hf with hf; subst hf
    rw [simplifyDefinition] at he
    cases h1 : simplifyFields checked x.fields with
    | none => simp [h1] at he
    | some fs =>
      simp only [h1, Option.bind_eq_bind, Option.bind_some, Option.pure_def, Option.some.injEq] at he
      subst he; injection hp with hp; subst hp
      exact ⟨mods, item _, rfl, trail, by simp, rfl⟩
  | enum x =>
    injection hf with hf; subst hf
    rw [simplifyDefinition] at he
    cases h1 : Simplify.simplifyVariants checked Compiler.idStart x.variants with
    | none => simp [h1] at he
    | some fs =>
      simp only [h1, Option.bind_eq_bind, Option.bind_some, Option.pure_def, Option.some.injEq] at he
      subst he; injection hp with hp; subst hp
      exact ⟨mods, item _, rfl, trail, by simp, rfl⟩
  | typeAlias x =>
    injection hf with hf; subst hf
    injection he with he; subst he; injection hp with hp; subst hp
    exact ⟨mods, item _, rfl, trail, by simp, rfl⟩
  | const x =>
    injection hf with hf; subst hf
    injection he with he; subst he; injection hp with hp; subst hp
    exact ⟨mods, item _, rfl, trail, by simp, rfl⟩
  | «import» i => cases hf

/-- C53. The page of every definition bears its name; its heading names the schema and all enclosing modules from the
outside in, and the link on each of them leads to the (existing) page of that module. -/
theorem C53_heading (h : Documented std checked out stem text s files) {mods : List String} {ds : List Ast.Definition}
    (hm : ModuleAt s mods ds) {d : Ast.Definition} (hd : d ∈ ds) {f : List Text} (hf : pageFile d = some f) :
    ∃ pg, (docDir out stem mods ++ f, pg) ∈ files ∧ some pg.title = defName d ∧
      pg.trail.map Link.label = stem :: mods ∧
      ∀ (i : Nat) (l : Link), pg.trail[i]? = some l →
        target (docDir out stem mods ++ f) l.href = docDir out stem (mods.take i) ++ ["index.html".toList] ∧
        target (docDir out stem mods ++ f) l.href ∈ files.map Prod.fst := by
  have hpg := C53_pages h
  obtain ⟨t, ht, rfl, hw⟩ := documented_inv h
  obtain ⟨e, pg, he, hp, hmem⟩ := page_exists (std := std) (out := out) ht hw.2 h.plain hm hd hf
  obtain ⟨full, h1, h2, h3, h4, h5⟩ := page_frame (out := out) hf he hp
  have hlab : pg.trail.map Link.label = stem :: mods := by
    rw [h3, trail_length, List.take_succ_cons, h4]
  refine ⟨pg, hmem, h5, hlab, fun i l hl => ?_⟩
  have hi : i ≤ mods.length := by
    have h6 := (List.getElem?_eq_some_iff.1 hl).1
    have h7 := congrArg List.length hlab
    rw [List.length_map, List.length_cons] at h7
    omega
  have hft : full.take i = mods.take i := by
    have := congrArg (List.take i) h4
    rwa [List.take_take, Nat.min_eq_left hi] at this
  have ht' : target (docDir out stem mods ++ f) l.href = docDir out stem (mods.take i) ++ ["index.html".toList] := by
    have := trail_target h1 (h3 ▸ hl)
    rw [this, hft]
  refine ⟨ht', ?_⟩
  rw [ht', hpg]
  -- the page of an enclosing module
  have key : ∀ {mods ds}, ModuleAt s mods ds → ∀ j ≤ mods.length,
      docDir out stem (mods.take j) ++ ["index.html".toList] = docDir out stem [] ++ ["index.html".toList] ∨
      ∃ mods' ds' d' f', ModuleAt s mods' ds' ∧ d' ∈ ds' ∧ pageFile d' = some f' ∧
        docDir out stem (mods.take j) ++ ["index.html".toList] = docDir out stem mods' ++ f' := by
    intro mods ds hma
    induction hma with
    | root => intro j _; left; simp
    | @module mods ds ds' c n hma hmem ih =>
      intro j hj
      by_cases hjl : j ≤ mods.length
      · rw [List.take_append_of_le_length hjl]; exact ih j hjl
      · right
        have : j = mods.length + 1 := by simp at hj; omega
        refine ⟨mods, ds, _, _, hma, hmem, rfl, ?_⟩
        rw [this, List.take_of_length_le (by simp), docDir_snoc]; simp
  exact key hm i hi

/-- C53. The page of the schema and the page of every module list exactly its definitions that are no imports, each with
its name and a link that leads to its page. -/
theorem C53_tables (h : Documented std checked out stem text s files) {mods : List String} {ds : List Ast.Definition}
    (hm : ModuleAt s mods ds) :
    ∃ pg, (docDir out stem mods ++ ["index.html".toList], pg) ∈ files ∧
      (pg.tables.map fun l => (target (docDir out stem mods ++ ["index.html".toList]) l.href, l.label)).Perm
        (ds.filterMap (entry out stem mods)) := by
  obtain ⟨t, ht, rfl, hw⟩ := documented_inv h
  obtain ⟨hwd, es, hs, _⟩ := module_files (std := std) (out := out) ht hw.2 h.plain hm
  have hp : (docDir out stem mods ++ ["index.html".toList]).dropLast = docDir out stem mods := by simp
  have hperm := tables_perm checked hp hs hwd
  cases hm with
  | root =>
    refine ⟨_, index_exists h.plain, ?_⟩
    have : t.definitions = es := by
      unfold simplifySchema at ht
      rw [hs] at ht
      simp only [Option.bind_eq_bind, Option.bind_some, Option.pure_def, Option.some.injEq] at ht
      rw [← ht]
    rw [← this] at hperm
    exact hperm
  | @module mods ds0 ds' c n hma hmem =>
    obtain ⟨e, pg, he, hp', hm'⟩ := page_exists (std := std) (out := out) ht hw.2 h.plain hma hmem rfl
    obtain ⟨es', h1, rfl⟩ := simplify_module checked he
    injection hp' with hp'; subst hp'
    rw [hs] at h1; injection h1 with h1; subst h1
    have e1 : docDir out stem (mods ++ [n]) ++ ["index.html".toList] =
        docDir out stem mods ++ [n.toList, "index.html".toList] := by rw [docDir_snoc]; simp
    refine ⟨_, by rw [e1]; exact hm', ?_⟩
    exact hperm

/-- Pages that can be reached over links. -/
inductive Reachable (files : List (List Text × Page)) (start : List Text) : List Text → Prop where
  | start : Reachable files start start
  | link {p : List Text} {pg : Page} {l : Link} : Reachable files start p → (p, pg) ∈ files → l ∈ pg.trail ++ pg.tables →
      Reachable files start (target p l.href)

/-- C53. Every page can be reached over links from the page of the schema. -/
theorem C53_reachable (h : Documented std checked out stem text s files) (p : List Text) (hp : p ∈ files.map Prod.fst) :
    Reachable files (docDir out stem [] ++ ["index.html".toList]) p := by
  have step : ∀ {mods ds}, ModuleAt s mods ds →
      Reachable files (docDir out stem [] ++ ["index.html".toList]) (docDir out stem mods ++ ["index.html".toList]) →
      ∀ d ∈ ds, ∀ f, pageFile d = some f →
      Reachable files (docDir out stem [] ++ ["index.html".toList]) (docDir out stem mods ++ f) := by
    intro mods ds hm hr d hd f hf
    obtain ⟨pg, hpg, hperm⟩ := C53_tables h hm
    have hn : ∃ n, defName d = some n := by cases d <;> first | exact ⟨_, rfl⟩ | cases hf
    obtain ⟨n, hn⟩ := hn
    have : (docDir out stem mods ++ f, n) ∈ ds.filterMap (entry out stem mods) :=
      List.mem_filterMap.2 ⟨d, hd, by simp only [entry, hf, hn]⟩
    obtain ⟨l, hl, e⟩ := List.mem_map.1 (hperm.mem_iff.2 this)
    injection e with e _
    rw [← e]
    exact .link hr hpg (List.mem_append.2 (.inr hl))
  have mods_reach : ∀ {mods ds}, ModuleAt s mods ds →
      Reachable files (docDir out stem [] ++ ["index.html".toList]) (docDir out stem mods ++ ["index.html".toList]) := by
    intro mods ds hm
    induction hm with
    | root => exact .start
    | @module mods ds ds' c n hma hmem ih =>
      have := step hma ih _ hmem _ rfl
      rw [docDir_snoc]
      simpa using this
  rcases (C53_pages h p).1 hp with rfl | ⟨mods, ds, d, f, h1, h2, h3, rfl⟩
  · exact .start
  · exact step h1 (mods_reach h1) d h2 f h3

/-- C53. No link in a heading or table leads nowhere. -/
theorem C53_no_dead_links (h : Documented std checked out stem text s files) (p : List Text) (pg : Page)
    (hp : (p, pg) ∈ files) (l : Link) (hl : l ∈ pg.trail ++ pg.tables) : target p l.href ∈ files.map Prod.fst := by
  have hpages := C53_pages h
  have hhead := @C53_heading std checked out stem text s files h
  obtain ⟨t, ht, rfl, hw⟩ := documented_inv h
  have table : ∀ {mods ds es}, ModuleAt s mods ds → Simplify.simplifyDefinitions checked ds = some es → DefsWf ds →
      p.dropLast = docDir out stem mods → l ∈ tables es → target p l.href ∈ (docSchema std checked out stem t).map Prod.fst := by
    intro mods ds es hm hs hwd hd hl
    have hperm := tables_perm checked hd hs hwd
    have : (target p l.href, l.label) ∈ ds.filterMap (entry out stem mods) :=
      hperm.mem_iff.1 (List.mem_map.2 ⟨l, hl, rfl⟩)
    obtain ⟨d, hd', e⟩ := List.mem_filterMap.1 this
    unfold entry at e
    split at e
    · rename_i f n hf hn
      injection e with e; injection e with e _
      rw [hpages, ← e]
      exact .inr ⟨mods, ds, d, f, hm, hd', hf, rfl⟩
    · cases e
  rcases page_known ht hw.2 h.plain hp with e | ⟨mods, ds, d, f, e, pg', h1, h2, h3, h4, h5, e6⟩
  · injection e with e1 e2
    subst e2
    rcases List.mem_append.1 hl with hl | hl
    · simp [indexPage] at hl
    · obtain ⟨hwd, es, hs, _⟩ := module_files (std := std) (out := out) ht hw.2 h.plain (.root : ModuleAt s [] s.definitions)
      have : t.definitions = es := by
        unfold simplifySchema at ht
        rw [hs] at ht
        simp only [Option.bind_eq_bind, Option.bind_some, Option.pure_def, Option.some.injEq] at ht
        rw [← ht]
      refine table .root hs hwd (by rw [e1]; simp) ?_
      rw [← this]; exact hl
  · injection e6 with e1 e2
    subst e2
    rcases List.mem_append.1 hl with hl | hl
    · obtain ⟨full, f1, f2, f3, f4, f5⟩ := page_frame (out := out) h3 h4 h5
      obtain ⟨i, hi⟩ := List.mem_iff_getElem?.1 hl
      obtain ⟨pg2, g1, g2, g3, g4⟩ := hhead h1 h2 h3
      have hti := trail_target f1 (f3 ▸ hi)
      rw [e1, hti]
      -- the same link on the page given by the theorem on headings
      have hlen : i < pg2.trail.length := by
        have a := (List.getElem?_eq_some_iff.1 hi).1
        have b : pg.trail.map Link.label = stem :: mods := by rw [f3, trail_length, List.take_succ_cons, f4]
        have c := congrArg List.length b
        have d := congrArg List.length g3
        rw [List.length_map] at c d
        omega
      have hi' : i ≤ mods.length := by
        have d := congrArg List.length g3
        rw [List.length_map, List.length_cons] at d
        omega
      obtain ⟨k1, k2⟩ := g4 i _ (List.getElem?_eq_getElem hlen)
      rw [k1] at k2
      have hft : full.take i = mods.take i := by
        have := congrArg (List.take i) f4
        rwa [List.take_take, Nat.min_eq_left hi'] at this
      rw [hft]; exact k2
    · have hwd := module_files (std := std) (out := out) ht hw.2 h.plain h1
      cases d with
      | module c n ds' =>
        obtain ⟨es', k1, rfl⟩ := simplify_module checked h4
        injection h5 with h5; subst h5
        have hma : ModuleAt s (mods ++ [n]) ds' := .module h1 h2
        obtain ⟨hwd', _⟩ := module_files (std := std) (out := out) ht hw.2 h.plain hma
        injection h3 with h3; subst h3
        refine table hma k1 hwd' ?_ hl
        rw [e1, docDir_snoc]
        have : docDir out stem mods ++ [n.toList, "index.html".toList] =
            (docDir out stem mods ++ [n.toList]) ++ ["index.html".toList] := by simp
        rw [this, List.dropLast_concat]
      | struct x =>
        rw [simplifyDefinition] at h4
        cases k : simplifyFields checked x.fields with
        | none => simp [k] at h4
        | some fs =>
          simp only [k, Option.bind_eq_bind, Option.bind_some, Option.pure_def, Option.some.injEq] at h4
          subst h4; injection h5 with h5; subst h5; simp [structPage] at hl
      | enum x =>
        rw [simplifyDefinition] at h4
        cases k : Simplify.simplifyVariants checked Compiler.idStart x.variants with
        | none => simp [k] at h4
        | some fs =>
          simp only [k, Option.bind_eq_bind, Option.bind_some, Option.pure_def, Option.some.injEq] at h4
          subst h4; injection h5 with h5; subst h5; simp [enumPage] at hl
      | typeAlias x => injection h4 with h4; subst h4; injection h5 with h5; subst h5; simp [aliasPage] at hl
      | const x => injection h4 with h4; subst h4; injection h5 with h5; subst h5; simp [constPage] at hl
      | «import» i => cases h3

/-- C53. All pages of a schema refer to the same style sheet, in the directory `assets` next to the schema's pages; but
`mabo doc` does not write it. -/
theorem C53_stylesheet_missing (h : Documented std checked out stem text s files) (p : List Text) (pg : Page)
    (hp : (p, pg) ∈ files) : target p pg.stylesheet = out ++ [stem.toList, "assets".toList, "style.css".toList] ∧
      target p pg.stylesheet ∉ files.map Prod.fst := by
  have hpages := C53_pages h
  obtain ⟨t, ht, rfl, hw⟩ := documented_inv h
  have key : target p pg.stylesheet = out ++ [stem.toList, "assets".toList, "style.css".toList] := by
    rcases page_known ht hw.2 h.plain hp with e | ⟨mods, ds, d, f, e, pg', h1, h2, h3, h4, h5, e6⟩
    · injection e with e1 e2
      subst e2
      rw [e1]
      exact stylesheet_target (full := []) (by simp)
    · injection e6 with e1 e2
      subst e2
      obtain ⟨full, f1, f2, _⟩ := page_frame (out := out) h3 h4 h5
      rw [f2, e1]
      exact stylesheet_target f1
  refine ⟨key, fun hm => ?_⟩
  rw [key, hpages] at hm
  have bad : ∀ {q : List Text}, q.getLast? = some "style.css".toList →
      ∀ {mods : List String} {f : List Text} {w : Text}, f.getLast? = some w → w ≠ "style.css".toList →
      q ≠ docDir out stem mods ++ f := by
    intro q hq mods f w hf hw e
    rw [e, List.getLast?_append, hf] at hq
    simp at hq
    exact hw hq
  have hq : (out ++ [stem.toList, "assets".toList, "style.css".toList]).getLast? = some "style.css".toList := by
    simp [List.getLast?_append]
  rcases hm with hm | ⟨mods, ds, d, f, h1, h2, h3, hm⟩
  · exact bad hq (f := ["index.html".toList]) rfl (by decide) hm
  · have hl : ∃ w, f.getLast? = some w ∧ w ≠ "style.css".toList := by
      have hne : ∀ (a : Text) (n : String), a ++ n.toList ++ ".html".toList ≠ "style.css".toList := by
        intro a n e
        have := congrArg List.getLast? e
        rw [List.getLast?_append] at this
        have : some 'l' = some 's' := this
        cases this
      cases d <;> simp only [pageFile, Option.some.injEq, reduceCtorEq] at h3 <;> subst h3
      · exact ⟨"index.html".toList, rfl, by decide⟩
      all_goals exact ⟨_, rfl, hne _ _⟩
    obtain ⟨w, hw1, hw2⟩ := hl
    exact bad hq hw1 hw2 hm

end

/-! ## C53: whole projects -/

/-- A file is documented exactly if it is accepted and, with overflow checks, no number follows 2^32 − 1. -/
theorem C53_file_documented (std : Std) (checked : Bool) (out : List Text) (stem : String) (text : Text) :
    (doc std checked out [(stem, text)]).1 = .ok () ↔
      ∃ s, parseSchema std text = some s ∧ (checked = true → NoIdOverflow s) := by
  simp only [doc]
  cases hp : parseSchema std text with
  | none => simp
  | some s =>
    by_cases hn : checked = true → NoIdOverflow s
    · obtain ⟨t, ht, _⟩ := C31_simplify checked s hn
      simp [ht]
      exact hn
    · simp only [C31_simplify_panics checked s hn]
      simp
      simpa using hn

/-- A project of documented files is documented, and the files written are those of the single files, in order. -/
theorem C53_project (std : Std) (checked : Bool) (out : List Text) (fs : List (String × Text))
    (h : ∀ f ∈ fs, (doc std checked out [f]).1 = .ok ()) :
    doc std checked out fs = (.ok (), fs.flatMap fun f => (doc std checked out [f]).2) := by
  induction fs with
  | nil => rfl
  | cons f fs ih =>
    obtain ⟨stem, text⟩ := f
    have h1 := h _ (List.mem_cons_self ..)
    have h2 := ih fun f hf => h f (List.mem_cons_of_mem _ hf)
    rw [List.flatMap_cons]
    generalize (fs.flatMap fun f => (doc std checked out [f]).2) = later at h2 ⊢
    simp only [doc] at h1 ⊢
    cases hp : parseSchema std text with
    | none => rw [hp] at h1; cases h1
    | some s =>
      simp only [hp] at h1 ⊢
      cases ht : simplifySchema checked s with
      | none => rw [ht] at h1; cases h1
      | some t => simp [h2]

/-- The first file that is not documented ends the run, and nothing is written for it or for later files. -/
theorem C53_project_stops (std : Std) (checked : Bool) (out : List Text) (pre post : List (String × Text))
    (f : String × Text) (h : ∀ f ∈ pre, (doc std checked out [f]).1 = .ok ())
    (hf : (doc std checked out [f]).1 ≠ .ok ()) :
    (doc std checked out (pre ++ f :: post)).1 = (doc std checked out [f]).1 ∧
      (doc std checked out (pre ++ f :: post)).2 = pre.flatMap fun f => (doc std checked out [f]).2 := by
  induction pre with
  | nil =>
    obtain ⟨stem, text⟩ := f
    simp only [doc, List.nil_append, List.flatMap_nil] at hf ⊢
    cases hp : parseSchema std text with
    | none => simp
    | some s =>
      simp only [hp] at hf ⊢
      cases ht : simplifySchema checked s with
      | none => simp
      | some t => rw [ht] at hf; exact absurd rfl hf
  | cons g pre ih =>
    obtain ⟨stem, text⟩ := g
    have h1 := h _ (List.mem_cons_self ..)
    obtain ⟨h2, h3⟩ := ih fun f hf => h f (List.mem_cons_of_mem _ hf)
    rw [List.flatMap_cons, List.cons_append]
    simp only [doc] at h1 h2 h3 ⊢
    cases hp : parseSchema std text with
    | none => rw [hp] at h1; cases h1
    | some s =>
      simp only [hp] at h1 ⊢
      cases ht : simplifySchema checked s with
      | none => rw [ht] at h1; cases h1
      | some t => simp [h2, h3]

/-- The pages of files with different stems are different files: no file of the project overwrites a page of another. -/
theorem C53_stems {std : Std} {checked : Bool} {out : List Text} {stem₁ stem₂ : String} {text₁ text₂ : Text}
    {s₁ s₂ : Ast.Schema} {files₁ files₂ : List (List Text × Page)}
    (h₁ : Documented std checked out stem₁ text₁ s₁ files₁) (h₂ : Documented std checked out stem₂ text₂ s₂ files₂)
    (hs : stem₁ ≠ stem₂) (p : List Text) (hp : p ∈ files₁.map Prod.fst) : p ∉ files₂.map Prod.fst := by
  have key : ∀ {stem : String} {text : Text} {s : Ast.Schema} {files : List (List Text × Page)},
      Documented std checked out stem text s files → ∀ {p}, p ∈ files.map Prod.fst →
      ∃ rest, p = out ++ stem.toList :: rest := by
    intro stem text s files h p hp
    rcases (C53_pages h p).1 hp with rfl | ⟨mods, ds, d, f, _, _, _, rfl⟩
    · exact ⟨stem.toList :: ["index.html".toList], by
        simp only [docDir, List.append_assoc, List.cons_append, List.nil_append, List.map_nil]⟩
    · exact ⟨stem.toList :: (mods.map String.toList ++ f), by
        simp only [docDir, List.append_assoc, List.cons_append, List.nil_append]⟩
  intro hp'
  obtain ⟨r₁, e₁⟩ := key h₁ hp
  obtain ⟨r₂, e₂⟩ := key h₂ hp'
  have := List.append_cancel_left (e₁.symm.trans e₂)
  injection this with this
  exact hs (String.toList_inj.1 this)

/-- Files with the same stem (in different directories of a project) write the same pages. -/
theorem C53_equal_stems_overwrite {std : Std} {checked : Bool} {out : List Text} {stem : String} {text₁ text₂ : Text}
    {s₁ s₂ : Ast.Schema} {files₁ files₂ : List (List Text × Page)}
    (h₁ : Documented std checked out stem text₁ s₁ files₁) (h₂ : Documented std checked out stem text₂ s₂ files₂) :
    docDir out stem [] ++ ["index.html".toList] ∈ files₁.map Prod.fst ∧
      docDir out stem [] ++ ["index.html".toList] ∈ files₂.map Prod.fst :=
  ⟨(C53_pages h₁ _).2 (.inl rfl), (C53_pages h₂ _).2 (.inl rfl)⟩

/-! ## Concrete cases -/

deriving instance DecidableEq for Build.Step

/-- A small schema file. -/
def C53_text : Text := "mod m { struct A { x: u8 @2 } }\nenum B { X { a: vec<m::A> @1 } @3, }\nconst C: u8 = 1;\n".toList

/-- The files written for it. -/
theorem C53_example : (doc C37_std true ["out".toList] [("s", C53_text)]).1 = .ok () ∧
    ((doc C37_std true ["out".toList] [("s", C53_text)]).2.map Prod.fst) = [
      ["out".toList, "s".toList, "s".toList, "index.html".toList],
      ["out".toList, "s".toList, "s".toList, "m".toList, "index.html".toList],
      ["out".toList, "s".toList, "s".toList, "m".toList, "struct.A.html".toList],
      ["out".toList, "s".toList, "s".toList, "enum.B.html".toList],
      ["out".toList, "s".toList, "s".toList, "constant.C.html".toList]] ∧
    ((doc C37_std true ["out".toList] [("s", C53_text)]).2.map (·.2.definition)) = [none, none,
      some "struct A {\n    x: u8 @2,\n}".toList,
      some "enum B {\n    X {\n        a: vec<m::A> @1,\n    } @3,\n}".toList,
      some "const C: u8 = 1;".toList] := by decide +kernel

/-- It meets the hypothesis of the theorems. -/
example : ∃ s files, Documented C37_std true ["out".toList] "s" C53_text s files := by
  obtain ⟨h, _⟩ := C53_example
  obtain ⟨s, hs, _⟩ := (C53_file_documented ..).1 h
  exact ⟨s, (doc C37_std true ["out".toList] [("s", C53_text)]).2, by decide, hs, by rw [← h]⟩

/-- `mabo doc` does not validate: of two definitions with the same name, one page is lost. -/
theorem C53_fails_unvalidated :
    ((doc C37_std true [] [("s", "struct A { x: u8 @1 }\nstruct A { y: u8 @1 }\n".toList)]).2.map Prod.fst) = [
      ["s".toList, "s".toList, "index.html".toList],
      ["s".toList, "s".toList, "struct.A.html".toList],
      ["s".toList, "s".toList, "struct.A.html".toList]] := by decide +kernel

/-- The full claim for constants is false: the text shown for this string is rejected … -/
theorem C54_fails_for_nul :
    ((doc C37_std true [] [("s", "const A: string = \"\\u{0}\";".toList)]).2.map (·.2.definition)) = [none,
      some "const A: string = \"\\0\";".toList] ∧
    (parseSchema C37_std ("const A: string = \"\\0\";".toList ++ ['\n'])).isNone = true := by decide +kernel

/-- … and the text shown for the float `1.0` is that of an integer. -/
theorem C54_fails_for_floats :
    (parseSchema C41_std "const A: f64 = 1.0;".toList).map numbers = some [.inr 0x3ff0000000000000#64] ∧
    ((doc C41_std true [] [("s", "const A: f64 = 1.0;".toList)]).2.map (·.2.definition)) = [none,
      some "const A: f64 = 1;".toList] ∧
    (parseSchema C41_std ("const A: f64 = 1;".toList ++ ['\n'])).map numbers = some [.inl 1] := by decide +kernel

end Mabo.Props
