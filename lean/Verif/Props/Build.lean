import Verif.Build.ProjectLemmas
import Verif.Props.RoundTrip
import Verif.Props.Schema
/-!
C47 (the generated crate means what the project's files say) and C48 (what a build writes), for every project.

Vocabulary: `compile order std valid checked inputs` — `Compiler::compile` on files given as (stem, text), with the files
in the output directory afterwards; `crateEnv files` — the types of a crate that includes each generated file as the module
of its name; `resolvePath` — Rust's reading of a path in a module of it. The specification is in `Spec/Build.lean`.
-/
namespace Mabo.Props
open Mabo.Spec Mabo.Build
open Mabo.Parse (Text Std)

/-- The syntax trees of the files that parse. -/
def schemasOf (std : Std) (inputs : List (String × Text)) : List (String × Ast.Schema) :=
  inputs.filterMap fun i => (Parse.parseSchema std i.2).map fun s => (i.1, s)

theorem schemasOf_each {std : Std} {checked : Bool} {inputs : List (String × Text)} {values : List (String × Ast.Schema)}
    (h : Each (Loads std checked) inputs values) : schemasOf std inputs = values := by
  induction h with
  | nil => rfl
  | cons h _ ih =>
    obtain ⟨h1, h2, h3⟩ := h
    simp only [schemasOf] at ih
    simp only [schemasOf, List.filterMap_cons, h2, Option.map_some, ih, ← h1]

/-! ### C48: what a build writes -/

/-- C48. A build succeeds exactly if every file parses, every schema is valid, all names resolve, and the generator
supports (see `C29_generator_exact`) every schema and Rust accepts the names in it (`valid`). -/
theorem C48_succeeds_iff (order : Resolve.Order) (std : Std) (valid : Simplify.Schema → Bool) (checked : Bool)
    (inputs : List (String × Text)) :
    (∃ files, compile order std valid checked inputs = ⟨.ok (), files⟩) ↔
      (∀ i ∈ inputs, ∃ s t, Parse.parseSchema std i.2 = some s ∧ Compiler.validateSchema checked s = .ok ∧
        Simplify.simplifySchema checked s = some t ∧ Generator.compileOk t = true ∧ valid t = true) ∧
      Resolve.resolveSchemas order (schemasOf std inputs) = .ok := by
  constructor
  · rintro ⟨files, h⟩
    obtain ⟨values, fs, h1, h2, h3, _⟩ := compile_ok.1 h
    refine ⟨fun i hi => ?_, by rw [schemasOf_each h1]; exact h2⟩
    obtain ⟨v, hv, hl⟩ := h1.left i hi
    obtain ⟨f, _, hg⟩ := h3.left v hv
    exact ⟨v.2, f.2, hl.2.1, hl.2.2, hg.2⟩
  · rintro ⟨h1, h2⟩
    obtain ⟨values, hv⟩ := Each.exists (R := Loads std checked) (as := inputs) fun i hi => by
      obtain ⟨s, t, h⟩ := h1 i hi
      exact ⟨(i.1, s), rfl, h.1, h.2.1⟩
    obtain ⟨fs, hf⟩ := Each.exists (R := Gen valid checked) (as := values) fun v hvm => by
      obtain ⟨i, hi, hl⟩ := hv.right v hvm
      obtain ⟨s, t, h⟩ := h1 i hi
      have : s = v.2 := by have := hl.2.1; rw [h.1, Option.some.injEq] at this; exact this
      subst this
      exact ⟨(v.1, t), rfl, h.2.2⟩
    exact ⟨_, compile_ok.2 ⟨values, fs, hv, by rw [← schemasOf_each hv]; exact h2, hf, rfl⟩⟩

/-- C48. If one file does not parse or is not valid, or a name does not resolve, the build fails and writes nothing at
all. -/
theorem C48_nothing_on_bad_input (order : Resolve.Order) (std : Std) (valid : Simplify.Schema → Bool) (checked : Bool)
    (inputs : List (String × Text))
    (h : (∃ i ∈ inputs, ∀ s, Parse.parseSchema std i.2 = some s → Compiler.validateSchema checked s ≠ .ok) ∨
      Resolve.resolveSchemas order (schemasOf std inputs) ≠ .ok) :
    (compile order std valid checked inputs).result ≠ .ok () ∧ (compile order std valid checked inputs).written = [] := by
  simp only [compile]
  cases hl : loadAll std checked inputs with
  | err => exact ⟨(nomatch ·), rfl⟩
  | panic => exact ⟨(nomatch ·), rfl⟩
  | ok values =>
    have he := loadAll_ok.1 hl
    cases hr : Resolve.resolveSchemas order values with
    | err _ => simp only [hr]; exact ⟨(nomatch ·), trivial⟩
    | panic => simp only [hr]; exact ⟨(nomatch ·), trivial⟩
    | ok =>
      exfalso
      rcases h with ⟨i, hi, h⟩ | h
      · obtain ⟨v, _, hv⟩ := he.left i hi
        exact h v.2 hv.2.1 hv.2.2
      · rw [schemasOf_each he] at h; exact h hr

/-- C48 (partial: file names must be different, see below). After a successful build there is exactly one file for each
input, with the same name, generated from a schema that says the same (`SameSchema`) as the input. -/
theorem C48_written_partial (order : Resolve.Order) (std : Std) (valid : Simplify.Schema → Bool) (checked : Bool)
    (inputs : List (String × Text)) (files : Files) (hn : (inputs.map (·.1)).Nodup)
    (h : compile order std valid checked inputs = ⟨.ok (), files⟩) :
    (files.map (·.1)).Nodup ∧ (∀ stem, stem ∈ files.map (·.1) ↔ stem ∈ inputs.map (·.1)) ∧
    ∀ stem text t, (stem, text) ∈ inputs → (stem, t) ∈ files →
      ∃ s, Parse.parseSchema std text = some s ∧ Simplify.simplifySchema checked s = some t ∧ SameSchema s t := by
  obtain ⟨values, fs, h1, h2, h3, rfl⟩ := compile_ok.1 h
  have hg := generated_of hn h1 h3
  refine ⟨writeAll_nodup (by simp), fun stem => ⟨fun hm => ?_, fun hm => ?_⟩, fun stem text t hi ht => ?_⟩
  · obtain ⟨⟨n, t⟩, ht, rfl⟩ := List.mem_map.1 hm
    obtain ⟨s, hs, _⟩ := hg.only _ _ ht
    rw [← each_names h1]
    exact List.mem_map.2 ⟨_, hs, rfl⟩
  · rw [← each_names h1] at hm
    obtain ⟨⟨n, s⟩, hs, rfl⟩ := List.mem_map.1 hm
    obtain ⟨t, ht, _⟩ := hg.names _ _ hs
    exact List.mem_map.2 ⟨_, List.mem_of_find?_eq_some ht, rfl⟩
  · obtain ⟨v, hv, hl⟩ := h1.left _ hi
    obtain ⟨f, hf, hgen⟩ := h3.left v hv
    have hnf : (fs.map (·.1)).Nodup := by rw [gen_names h3, each_names h1]; exact hn
    have ht' : (stem, t) ∈ fs := by
      rcases mem_writeAll ht with h | h
      · exact h
      · cases h
    have hf' : (stem, f.2) ∈ fs := by
      have : f = (stem, f.2) := Prod.ext (hgen.1.trans hl.1) rfl
      rwa [this] at hf
    have e1 := find_of_nodup hnf ht'
    rw [find_of_nodup hnf hf'] at e1
    cases e1
    exact ⟨v.2, hl.2.1, hgen.2.1, same_of_simplify hl.2.2 hgen.2.1⟩

/-- C48. The order in which the project lists its files does not matter. -/
theorem C48_order_irrelevant (o₁ o₂ : Resolve.Order) (h₁ : Resolve.IsOrder o₁) (h₂ : Resolve.IsOrder o₂) (std : Std)
    (valid : Simplify.Schema → Bool) (checked : Bool) (inputs inputs' : List (String × Text)) (hp : inputs.Perm inputs')
    (hn : (inputs.map (·.1)).Nodup) (files : Files) (h : compile o₁ std valid checked inputs = ⟨.ok (), files⟩) :
    ∃ files', compile o₂ std valid checked inputs' = ⟨.ok (), files'⟩ ∧ files'.Perm files := by
  have hn' : (inputs'.map (·.1)).Nodup := (hp.map _).nodup_iff.1 hn
  have ⟨ha, hr⟩ := (C48_succeeds_iff o₁ std valid checked inputs).1 ⟨files, h⟩
  have validated : ∀ is : List (String × Text), (is.map (·.1)).Nodup → (∀ i ∈ is, i ∈ inputs) →
      Validated (schemasOf std is) := by
    intro is hnd hsub
    obtain ⟨values, hv⟩ := Each.exists (R := Loads std checked) (as := is) fun i hi => by
      obtain ⟨s, t, h⟩ := ha i (hsub i hi)
      exact ⟨(i.1, s), rfl, h.1, h.2.1⟩
    rw [schemasOf_each hv]
    refine ⟨by rw [each_names hv]; exact hnd, fun v hvm => ?_⟩
    obtain ⟨_, _, hl⟩ := hv.right v hvm
    exact ⟨checked, hl.2.2⟩
  have hr' : Resolve.resolveSchemas o₂ (schemasOf std inputs') = .ok := by
    have v1 := validated inputs hn (fun _ h => h)
    have v2 := validated inputs' hn' (fun i hi => hp.mem_iff.2 hi)
    have hmem : ∀ v, v ∈ schemasOf std inputs ↔ v ∈ schemasOf std inputs' := fun v => (hp.filterMap _).mem_iff
    have io : ∀ i, ImportOk (schemasOf std inputs) i → ImportOk (schemasOf std inputs') i := by
      intro i hi
      cases hi with
      | type a b c => exact .type ((hmem _).1 a) b c
      | module a b => exact .module ((hmem _).1 a) b
    have ho := (C32_resolve_exact o₁ h₁ _ v1).1 hr
    refine (C32_resolve_exact o₂ h₂ _ v2).2 fun v hv => ?_
    obtain ⟨a, b⟩ := ho v ((hmem v).2 hv)
    refine ⟨fun i hi => io i (a i hi), fun scope d path name args hs hd hm => ?_⟩
    cases b scope d path name args hs hd hm with
    | param h => exact .param h
    | loc h1 h2 => exact .loc h1 h2
    | imported h1 h2 h3 h4 => exact .imported h1 ((hmem _).1 h2) h3 h4
  obtain ⟨files', h'⟩ := (C48_succeeds_iff o₂ std valid checked inputs').2 ⟨fun i hi => ha i (hp.mem_iff.2 hi), hr'⟩
  refine ⟨files', h', ?_⟩
  have ⟨n1, m1, s1⟩ := C48_written_partial o₁ std valid checked inputs files hn h
  have ⟨n2, m2, s2⟩ := C48_written_partial o₂ std valid checked inputs' files' hn' h'
  have sub : ∀ f, f ∈ files' ↔ f ∈ files := by
    have one : ∀ (a b : Files) (is js : List (String × Text)), is.Perm js → (∀ stem, stem ∈ a.map (·.1) ↔ stem ∈ is.map (·.1)) →
        (∀ stem, stem ∈ b.map (·.1) ↔ stem ∈ js.map (·.1)) →
        (∀ stem text t, (stem, text) ∈ is → (stem, t) ∈ a →
          ∃ s, Parse.parseSchema std text = some s ∧ Simplify.simplifySchema checked s = some t ∧ SameSchema s t) →
        (∀ stem text t, (stem, text) ∈ js → (stem, t) ∈ b →
          ∃ s, Parse.parseSchema std text = some s ∧ Simplify.simplifySchema checked s = some t ∧ SameSchema s t) →
        ∀ f, f ∈ a → f ∈ b := by
      intro a b is js hperm ma mb sa sb f hf
      have hstem := (ma f.1).1 (List.mem_map_of_mem hf)
      obtain ⟨⟨stem, text⟩, hi, he⟩ := List.mem_map.1 hstem
      simp only at he
      have hj := hperm.mem_iff.1 hi
      obtain ⟨g, hg, hge⟩ := List.mem_map.1 ((mb stem).2 (List.mem_map.2 ⟨_, hj, rfl⟩))
      obtain ⟨x, x1, x2, _⟩ := sa stem text f.2 hi (by rw [he]; exact hf)
      obtain ⟨y, y1, y2, _⟩ := sb stem text g.2 hj (by rw [← hge]; exact hg)
      rw [x1, Option.some.injEq] at y1
      subst y1
      rw [x2, Option.some.injEq] at y2
      have : f = g := Prod.ext (by rw [hge, he]) y2
      rw [this]; exact hg
    exact fun f => ⟨one files' files inputs' inputs hp.symm m2 m1 s2 s1 f, one files files' inputs inputs' hp m1 m2 s1 s2 f⟩
  have nd : ∀ l : Files, (l.map (·.1)).Nodup → l.Nodup := fun l hl => List.Pairwise.of_map _ (fun _ _ h e => h (e ▸ rfl)) hl
  exact (List.perm_ext_iff_of_nodup (nd _ n2) (nd _ n1)).2 sub

/-! ### C47: what the generated crate means -/

/-- Everything a successful build is known to have checked. -/
theorem accepted_parts {order : Resolve.Order} (ho : Resolve.IsOrder order) {std : Std} {valid : Simplify.Schema → Bool}
    {checked : Bool} {inputs : List (String × Text)} {files : Files} (hn : (inputs.map (·.1)).Nodup)
    (h : compile order std valid checked inputs = ⟨.ok (), files⟩) :
    Generated (schemasOf std inputs) files ∧ (∀ v ∈ schemasOf std inputs, ValidSchema v.2) ∧
    (∀ v ∈ schemasOf std inputs, ImportsOk (schemasOf std inputs) v.2 ∧ TypesResolve (schemasOf std inputs) v.2) := by
  obtain ⟨values, fs, h1, h2, h3, rfl⟩ := compile_ok.1 h
  rw [schemasOf_each h1]
  have hv : ∀ v ∈ values, Compiler.validateSchema checked v.2 = .ok := fun v hvm => by
    obtain ⟨_, _, hl⟩ := h1.right v hvm; exact hl.2.2
  refine ⟨generated_of hn h1 h3, fun v hvm => ((C25_validate_exact checked v.2).1 (hv v hvm)).1, ?_⟩
  exact (C32_resolve_exact order ho values ⟨by rw [each_names h1]; exact hn, fun v hvm => ⟨checked, hv v hvm⟩⟩).1 h2

theorem refers_resolves {values : List (String × Ast.Schema)} {s : Ast.Schema} {mods : List String}
    {scope : List Ast.Definition} {d : Ast.Definition} (hr : TypesResolve values s) (hp : ScopeAt s.definitions mods scope)
    (hd : d ∈ scope) (hc : Clear values s mods scope d) {path : List String} {name : String} {args : List Ast.DataType}
    (h : Refers d path name args) : Resolves values s scope d path name args := by
  by_cases hm : Mentioned d path name args
  · exact hr scope d path name args (Resolve.scope_scopeAt.2 ⟨_, hp⟩) hd hm
  · exact hc.hidden path name args h hm

/-- What an accepted reference denotes. -/
theorem refers_denotes {values : List (String × Ast.Schema)} {stem : String} {s : Ast.Schema} {mods : List String}
    {scope : List Ast.Definition} {d : Ast.Definition} (hr : TypesResolve values s) (hp : ScopeAt s.definitions mods scope)
    (hd : d ∈ scope) (hc : Clear values s mods scope d) {path : List String} {name : String} {args : List Ast.DataType}
    (h : Refers d path name args) (hnp : ¬ (path = [] ∧ name ∈ typeParams d)) :
    ∃ abs, Denotes values stem s mods scope path name args.length abs := by
  cases refers_resolves hr hp hd hc h with
  | param hm => exact absurd ⟨rfl, hm⟩ hnp
  | loc h1 h2 => exact ⟨_, .loc h1 h2⟩
  | imported h1 h2 h3 h4 =>
    by_cases hm : mods = []
    · exact ⟨_, .imported hm h1 h2 h3 h4⟩
    · exact ⟨_, .loc (.here _) (hc.imports hm _ _ h fun hx => hnp ⟨rfl, hx⟩)⟩

/-- C47 (partial: the references of the definition must be `Clear`, see below). In the crate generated from an accepted
project, every reference in a definition is a type parameter, or a path that Rust resolves to the type that the reference
denotes in the schema, which exists and takes as many arguments as the reference has. -/
theorem C47_references_partial (order : Resolve.Order) (ho : Resolve.IsOrder order) (std : Std)
    (valid : Simplify.Schema → Bool) (checked : Bool) (inputs : List (String × Text)) (files : Files)
    (hn : (inputs.map (·.1)).Nodup) (h : compile order std valid checked inputs = ⟨.ok (), files⟩)
    (stem : String) (s : Ast.Schema) (mods : List String) (scope : List Ast.Definition) (d : Ast.Definition)
    (hp : Place (schemasOf std inputs) stem s mods scope) (hd : d ∈ scope)
    (hc : Clear (schemasOf std inputs) s mods scope d) (path : List String) (name : String) (args : List Ast.DataType)
    (hr : Refers d path name args) :
    (path = [] ∧ name ∈ typeParams d ∧ args = []) ∨
    ∃ abs i, Denotes (schemasOf std inputs) stem s mods scope path name args.length abs ∧
      resolvePath files (stem :: mods) path name = some abs ∧ itemAt files abs = some i ∧ i.generics.length = args.length := by
  obtain ⟨hg, hv, hres⟩ := accepted_parts ho hn h
  by_cases hnp : path = [] ∧ name ∈ typeParams d
  · obtain ⟨rfl, hm⟩ := hnp
    exact .inl ⟨rfl, hm, hc.params name args hr hm⟩
  · obtain ⟨abs, ha⟩ := refers_denotes (stem := stem) (hres _ hp.schema).2 hp.scope hd hc hr hnp
    obtain ⟨h1, i, h2, h3⟩ := resolvePath_denotes hg (fun v hvm => uniqueNames_of_names (hv v hvm).names) hp ha
    exact .inr ⟨abs, i, ha, h1, h2, h3⟩

/-- C47 (partial as above). Every struct and enum of an accepted project is a type of the generated crate, at the path
given by its file, its modules and its name, and its fields, types and numbers are those the schema says. -/
theorem C47_definitions_partial (order : Resolve.Order) (ho : Resolve.IsOrder order) (std : Std)
    (valid : Simplify.Schema → Bool) (checked : Bool) (inputs : List (String × Text)) (files : Files)
    (hn : (inputs.map (·.1)).Nodup) (h : compile order std valid checked inputs = ⟨.ok (), files⟩)
    (stem : String) (s : Ast.Schema) (mods : List String) (scope : List Ast.Definition) (d : Ast.Definition) (name : String)
    (hp : Place (schemasOf std inputs) stem s mods scope) (hd : d ∈ scope) (ht : IsTypeDef d name)
    (hc : Clear (schemasOf std inputs) s mods scope d) :
    ∃ def', crateEnv files (stem :: mods ++ [name]) = some def' ∧
      DefMeans (Denotes (schemasOf std inputs) stem s mods scope) d def' := by
  obtain ⟨hg, hv, hres⟩ := accepted_parts ho hn h
  have hu : ∀ v ∈ schemasOf std inputs, UniqueNames v.2.definitions := fun v hvm => uniqueNames_of_names (hv v hvm).names
  have ht' : IsType d ∧ defName d = name := by
    cases ht with
    | struct st => exact ⟨.struct st, rfl⟩
    | enum e => exact ⟨.enum e, rfl⟩
  obtain ⟨i, h1, h2⟩ := itemAt_fwd hg hp.schema (hu _ hp.schema) hp.scope hd ht'.1
  rw [ht'.2] at h1
  refine ⟨_, by simp only [crateEnv, h1, Option.map_some]; rfl, ?_⟩
  rw [List.dropLast_concat]
  refine lowerItem_means h2 fun path nm args hr => ?_
  rcases C47_references_partial order ho std valid checked inputs files hn h stem s mods scope d hp hd hc path nm args hr with
    h3 | ⟨abs, i', h3, h4, _, _⟩
  · exact .inl h3
  · by_cases hnp : path = [] ∧ nm ∈ typeParams d
    · exact .inl ⟨hnp.1, hnp.2, hc.params nm args (hnp.1 ▸ hr) hnp.2⟩
    · exact .inr ⟨hnp, abs, h4, h3⟩

/-- C47. The generated crate has no other types. -/
theorem C47_nothing_else (order : Resolve.Order) (ho : Resolve.IsOrder order) (std : Std)
    (valid : Simplify.Schema → Bool) (checked : Bool) (inputs : List (String × Text)) (files : Files)
    (hn : (inputs.map (·.1)).Nodup) (h : compile order std valid checked inputs = ⟨.ok (), files⟩)
    (abs : List String) (def' : Schema.Def) (hd : crateEnv files abs = some def') :
    ∃ stem s mods scope d name, Place (schemasOf std inputs) stem s mods scope ∧ d ∈ scope ∧ IsTypeDef d name ∧
      abs = stem :: mods ++ [name] := by
  obtain ⟨hg, _, _⟩ := accepted_parts ho hn h
  simp only [crateEnv, Option.map_eq_some_iff] at hd
  obtain ⟨i, hi, _⟩ := hd
  obtain ⟨stem, s, mods, scope, d, rfl, h1, h2, h3, h4⟩ := itemAt_back hg hi
  refine ⟨stem, s, mods, scope, d, defName d, ⟨h1, h2⟩, h3, ?_, rfl⟩
  cases h4 with
  | struct _ => exact .struct _
  | enum _ => exact .enum _

/-- C47. The types of the generated crate have usable numbers (the hypothesis of C13 and the other properties of generated
code) if the numbers in the files fit the wire format (C30). -/
theorem C47_usable_ids (order : Resolve.Order) (ho : Resolve.IsOrder order) (std : Std)
    (valid : Simplify.Schema → Bool) (checked : Bool) (inputs : List (String × Text)) (files : Files)
    (hn : (inputs.map (·.1)).Nodup) (h : compile order std valid checked inputs = ⟨.ok (), files⟩)
    (hw : ∀ v ∈ schemasOf std inputs, ∀ d, Occurs v.2 d → ∀ l, IdList d l → WireIds l) : EnvOk (crateEnv files) := by
  obtain ⟨hg, hv, _⟩ := accepted_parts ho hn h
  intro abs def' hd
  simp only [crateEnv, Option.map_eq_some_iff] at hd
  obtain ⟨i, hi, rfl⟩ := hd
  obtain ⟨stem, s, mods, scope, d, rfl, h1, h2, h3, h4⟩ := itemAt_back hg hi
  have ho : Occurs s d := ⟨scope, Resolve.scope_scopeAt.2 ⟨_, h2⟩, h3⟩
  exact lowerItem_ok _ h4 (fun l hl => (hv _ h1).ids d ho l hl) (hw _ h1 d ho)

/-- C47. From the text of the files to the bytes: a value of a type of the generated crate is decoded from its encoding
(side conditions on the value as in C13). -/
theorem C47_roundtrip_partial (order : Resolve.Order) (ho : Resolve.IsOrder order) (std : Std)
    (valid : Simplify.Schema → Bool) (checked : Bool) (inputs : List (String × Text)) (files : Files)
    (hn : (inputs.map (·.1)).Nodup) (h : compile order std valid checked inputs = ⟨.ok (), files⟩)
    (hw : ∀ v ∈ schemasOf std inputs, ∀ d, Occurs v.2 d → ∀ l, IdList d l → WireIds l)
    (name : List String) (args : List Schema.Ty) (v : Schema.Val)
    (hwt : Schema.wt (crateEnv files) (.ext name args) v = true) (hf : faithful (crateEnv files) (.ext name args) v = true)
    (hl : (Codegen.enc (crateEnv files) false (.ext name args) v).length < 2 ^ 64) (rest : Buf.Bytes) :
    Codegen.decodeExt (crateEnv files) name args (Codegen.enc (crateEnv files) false (.ext name args) v ++ rest) = .ok v rest :=
  C13_roundtrip _ (C47_usable_ids order ho std valid checked inputs files hn h hw) name args v hwt hf hl rest

/-! ### A simple check for `Clear` -/

mutual
/-- The type contains a reference. -/
def hasRef : Ast.DataType → Bool
  | .prim _ => false
  | .vec t | .hashSet t | .option t | .nonZero t | .array t _ => hasRef t
  | .hashMap k v => hasRef k || hasRef v
  | .tuple ts _ => hasRefs ts
  | .external _ _ _ _ => true
/-- One of them does. -/
def hasRefs : List Ast.DataType → Bool
  | [] => false
  | t :: ts => hasRef t || hasRefs ts
end

mutual
/-- No reference inside `non_zero<..>`, no arguments for type parameters. -/
def plainTy (params : List String) : Ast.DataType → Bool
  | .prim _ => true
  | .vec t | .hashSet t | .option t | .array t _ => plainTy params t
  | .nonZero t => !hasRef t
  | .hashMap k v => plainTy params k && plainTy params v
  | .tuple ts _ => plainTys params ts
  | .external path name args _ => (!(path.isEmpty && params.contains name) || args.isEmpty) && plainTys params args
/-- For all of them. -/
def plainTys (params : List String) : List Ast.DataType → Bool
  | [] => true
  | t :: ts => plainTy params t && plainTys params ts
end

/-- For all fields. -/
def plainFields (params : List String) : Ast.Fields → Bool
  | .named fs _ => fs.all fun f => plainTy params f.ty
  | .unnamed fs _ => fs.all fun f => plainTy params f.ty
  | .unit => true

/-- For a definition. -/
def plainDef : Ast.Definition → Bool
  | .struct s => plainFields s.generics s.fields
  | .enum e => e.variants.all fun v => plainFields e.generics v.fields
  | _ => true

theorem hasRefs_mem {t : Ast.DataType} : ∀ {ts : List Ast.DataType}, t ∈ ts → hasRef t = true → hasRefs ts = true
  | _ :: _, h, ht => by
    rcases List.mem_cons.1 h with rfl | h
    · simp [hasRefs, ht]
    · simp [hasRefs, hasRefs_mem h ht]

theorem plainTys_mem {params : List String} {t : Ast.DataType} : ∀ {ts : List Ast.DataType}, t ∈ ts →
    plainTys params ts = true → plainTy params t = true
  | _ :: _, h, ht => by
    simp only [plainTys, Bool.and_eq_true] at ht
    rcases List.mem_cons.1 h with rfl | h
    · exact ht.1
    · exact plainTys_mem h ht.2

theorem hasRef_within {p : List String} {n : String} {a : List Ast.DataType} {tr : Bool} {t : Ast.DataType}
    (h : Anywhere (.external p n a tr) t) : hasRef t = true := by
  induction h with
  | here => rfl
  | vec _ ih => simpa [hasRef] using ih
  | hashMapKey _ ih => simp [hasRef, ih]
  | hashMapValue _ ih => simp [hasRef, ih]
  | hashSet _ ih => simpa [hasRef] using ih
  | option _ ih => simpa [hasRef] using ih
  | nonZero _ ih => simpa [hasRef] using ih
  | array _ ih => simpa [hasRef] using ih
  | tuple hm _ ih => simp [hasRef, hasRefs_mem hm ih]
  | argument hm _ ih => rfl

theorem plainTy_within {params : List String} {p : List String} {n : String} {a : List Ast.DataType} {tr : Bool}
    {t : Ast.DataType} (h : Anywhere (.external p n a tr) t) (hp : plainTy params t = true) :
    Part (.external p n a tr) t ∧ (p = [] → n ∈ params → a = []) := by
  induction h with
  | here =>
    refine ⟨.here, fun h1 h2 => ?_⟩
    simp only [plainTy, Bool.and_eq_true, Bool.or_eq_true, Bool.not_eq_true', List.isEmpty_iff] at hp
    rcases hp.1 with h | h
    · subst h1
      simp [h2] at h
    · exact h
  | vec _ ih => exact ⟨.vec (ih hp).1, (ih hp).2⟩
  | hashMapKey _ ih =>
    simp only [plainTy, Bool.and_eq_true] at hp
    exact ⟨.hashMapKey (ih hp.1).1, (ih hp.1).2⟩
  | hashMapValue _ ih =>
    simp only [plainTy, Bool.and_eq_true] at hp
    exact ⟨.hashMapValue (ih hp.2).1, (ih hp.2).2⟩
  | hashSet _ ih => exact ⟨.hashSet (ih hp).1, (ih hp).2⟩
  | option _ ih => exact ⟨.option (ih hp).1, (ih hp).2⟩
  | nonZero hw ih => simp [plainTy, hasRef_within hw] at hp
  | array _ ih => exact ⟨.array (ih hp).1, (ih hp).2⟩
  | tuple hm _ ih =>
    have hp := plainTys_mem hm hp
    exact ⟨.tuple hm (ih hp).1, (ih hp).2⟩
  | argument hm _ ih =>
    simp only [plainTy, Bool.and_eq_true] at hp
    have hp := plainTys_mem hm hp.2
    exact ⟨.argument hm (ih hp).1, (ih hp).2⟩

theorem plainDef_refers {d : Ast.Definition} (hp : plainDef d = true) {path : List String} {name : String}
    {args : List Ast.DataType} (h : Refers d path name args) :
    Mentioned d path name args ∧ (path = [] → name ∈ typeParams d → args = []) := by
  obtain ⟨fs, t, tr, h1, h2, h3⟩ := h
  have key : plainFields (typeParams d) fs = true := by
    cases h1 with
    | struct st => exact hp
    | variant e v hv =>
      simp only [plainDef, List.all_eq_true] at hp
      exact hp v hv
  have key2 : plainTy (typeParams d) t = true := by
    cases h2 with
    | named f hf => simp only [plainFields, List.all_eq_true] at key; exact key f hf
    | unnamed f hf => simp only [plainFields, List.all_eq_true] at key; exact key f hf
  have := plainTy_within h3 key2
  exact ⟨⟨fs, t, tr, h1, h2, this.1⟩, this.2⟩

/-- Definitions at the top level of a file, without references inside `non_zero<..>` and without arguments for type
parameters, are `Clear`. -/
theorem clear_of_plain {values : List (String × Ast.Schema)} {s : Ast.Schema} {scope : List Ast.Definition}
    {d : Ast.Definition} (h : plainDef d = true) : Clear values s [] scope d :=
  ⟨fun _ _ _ hr hm => absurd (plainDef_refers h hr).1 hm, fun _ _ hr hm => (plainDef_refers h hr).2 rfl hm,
    fun h => absurd rfl h⟩

/-- A check of `WireIds`. -/
def wireList (l : List (Option (BitVec 32))) : Bool := (Compiler.assignFrom Compiler.idStart l).all fun id => decide (idOk id)

theorem wireList_ok {l : List (Option (BitVec 32))} (h : wireList l = true) : WireIds l := by
  intro ids ha id hid
  rw [Compiler.assigned_iff] at ha
  subst ha
  simp only [wireList, List.all_eq_true, decide_eq_true_eq] at h
  exact h id hid

mutual
/-- A check of all numbers in a definition. -/
def wireDef : Ast.Definition → Bool
  | .module _ _ ds => wireDefs ds
  | .struct s => wireList (givenIds s.fields)
  | .enum e => wireList (e.variants.map (·.id)) && e.variants.all fun v => wireList (givenIds v.fields)
  | _ => true
/-- In all of them. -/
def wireDefs : List Ast.Definition → Bool
  | [] => true
  | d :: ds => wireDef d && wireDefs ds
end

theorem wireDefs_mem {d : Ast.Definition} : ∀ {ds : List Ast.Definition}, d ∈ ds → wireDefs ds = true → wireDef d = true
  | _ :: _, h, ht => by
    simp only [wireDefs, Bool.and_eq_true] at ht
    rcases List.mem_cons.1 h with rfl | h
    · exact ht.1
    · exact wireDefs_mem h ht.2

/-- The check implies the hypothesis of `C47_usable_ids`. -/
theorem wireDefs_ok {s : Ast.Schema} (h : wireDefs s.definitions = true) :
    ∀ d, Occurs s d → ∀ l, IdList d l → WireIds l := by
  rintro d ⟨ds, hs, hd⟩ l hl
  have hds : ∀ ds, Scope s ds → wireDefs ds = true := by
    intro ds hs
    induction hs with
    | root => exact h
    | module _ hm ih => exact wireDefs_mem hm ih
  have := wireDefs_mem hd (hds ds hs)
  cases hl with
  | variants e =>
    simp only [wireDef, Bool.and_eq_true] at this
    exact wireList_ok this.1
  | fields hf =>
    cases hf with
    | struct st => exact wireList_ok this
    | variant e v hv =>
      simp only [wireDef, Bool.and_eq_true, List.all_eq_true] at this
      exact wireList_ok (this.2 v hv)

/-! ### An example from text to bytes -/

/-- Two files, of which the first uses a type of a module of the second. -/
def buildInputs : List (String × Text) :=
  [("a", "use b::geo::Point;\nstruct S<T> { p: Point<T> @1, q: m::Q @2 }\nmod m { struct Q(u8 @1) }\n".toList),
   ("b", "mod geo { struct Point<T>(T @1, u16 @2) }\n".toList)]

/-- Whether a build succeeds. -/
def succeeds (b : Build) : Bool :=
  match b.result with
  | .ok () => true
  | _ => false

theorem succeeds_iff {b : Build} (h : succeeds b = true) : b = ⟨.ok (), b.written⟩ := by
  obtain ⟨r, w⟩ := b
  cases r with
  | ok u => rfl
  | err => simp [succeeds] at h
  | panic => simp [succeeds] at h

theorem buildInputs_ok : succeeds (compile id C37_std (fun _ => true) true buildInputs) = true := by decide +kernel

/-- The files that are written. -/
def buildFiles : Files := (compile id C37_std (fun _ => true) true buildInputs).written

theorem buildFiles_eq : compile id C37_std (fun _ => true) true buildInputs = ⟨.ok (), buildFiles⟩ :=
  succeeds_iff buildInputs_ok

/-- `S { p: Point(7, 300), q: Q(5) }` with `T = u8`. -/
def buildValue : Schema.Val := .struct [.struct [.num 7, .num 300], .struct [.num 5]]

example : resolvePath buildFiles ["a"] [] "Point" = some ["b", "geo", "Point"] ∧
    resolvePath buildFiles ["a"] ["m"] "Q" = some ["a", "m", "Q"] ∧
    Schema.wt (crateEnv buildFiles) (.ext ["a", "S"] [.prim .u8]) buildValue = true ∧
    faithful (crateEnv buildFiles) (.ext ["a", "S"] [.prim .u8]) buildValue = true ∧
    (schemasOf C37_std buildInputs).all (fun v => v.2.definitions.all plainDef) = true := by decide +kernel

/-- The bytes of the example value, and back, by the theorem. -/
example (rest : Buf.Bytes) : Codegen.decodeExt (crateEnv buildFiles) ["a", "S"] [.prim .u8]
    (Codegen.enc (crateEnv buildFiles) false (.ext ["a", "S"] [.prim .u8]) buildValue ++ rest) = .ok buildValue rest :=
  C47_roundtrip_partial id isOrder_id C37_std (fun _ => true) true buildInputs buildFiles (by decide) buildFiles_eq
    (by
      have h : ∀ v ∈ schemasOf C37_std buildInputs, wireDefs v.2.definitions = true := by
        have : (schemasOf C37_std buildInputs).all (fun v => wireDefs v.2.definitions) = true := by decide +kernel
        simpa only [List.all_eq_true] using this
      exact fun v hv => wireDefs_ok (h v hv))
    _ _ _ (by decide +kernel) (by decide +kernel) (by decide +kernel) rest

/-! ### Where the full claims fail -/

/-- Refutation of C47 without `Clear.imports`: the file `a` imports `Point` and uses it in its module `m`. The build
succeeds, but `use` in a Rust module says nothing about the modules inside it: in `a::m` of the generated crate there is no
`Point`. -/
theorem C47_fails_for_inner_uses :
    let inputs := [("a", "use b::Point;\nmod m { struct Q(Point) }\n".toList), ("b", "struct Point(u8)\n".toList)]
    let b := compile id C37_std (fun _ => true) true inputs
    succeeds b = true ∧ (scopeOf b.written ["a", "m"]).isSome = true ∧
      (itemAt b.written ["b", "Point"]).isSome = true ∧ resolvePath b.written ["a", "m"] [] "Point" = none := by
  decide +kernel

/-- Worse, a second import inside the module can make it another type: here the resolver means `b::Point`, and Rust means
`a::x::Point`. -/
theorem C47_fails_for_inner_imports :
    let inputs := [("a", "use b::Point;\nmod x { struct Point(u16) }\nmod m { use x::Point; struct Q(Point) }\n".toList),
      ("b", "struct Point(u8)\n".toList)]
    let b := compile id C37_std (fun _ => true) true inputs
    succeeds b = true ∧ resolvePath b.written ["a", "m"] [] "Point" = some ["a", "x", "Point"] := by
  decide +kernel

/-- Refutation of C47 without `Clear.hidden`: references inside `non_zero<..>` are not looked at. -/
theorem C47_fails_inside_non_zero :
    let b := compile id C37_std (fun _ => true) true [("a", "struct S(non_zero<vec<Nowhere>>)\n".toList)]
    succeeds b = true ∧ resolvePath b.written ["a"] [] "Nowhere" = none := by
  decide +kernel

/-- Refutation of C47 without `Clear.params`: the resolver takes `T<u8>` for the struct `T`, although `T` is a type parameter
(which in Rust takes no arguments). -/
theorem C47_fails_for_parameters_with_arguments :
    succeeds (compile id C37_std (fun _ => true) true
      [("a", "struct T<X>(X)\nstruct S<T>(T, T<u8>)\n".toList)]) = true := by
  decide +kernel

/-- The targets of aliases are not looked at either: the type does not exist in the generated crate. -/
theorem C47_fails_for_aliases :
    let b := compile id C37_std (fun _ => true) true [("a", "type S = Nowhere;\n".toList)]
    succeeds b = true ∧ resolvePath b.written ["a"] [] "Nowhere" = none := by
  decide +kernel

/-- Refutation of C48 for equal file names (`x/b.mabo` and `y/b.mabo`): one file replaces the other, and what the resolver
has found in the first one is missing. -/
theorem C48_fails_for_equal_names :
    let inputs := [("b", "struct P(u8)\n".toList), ("b", "struct Q(u8)\n".toList),
      ("a", "use b::P;\nstruct S(P)\n".toList)]
    let b := compile id C37_std (fun _ => true) true inputs
    succeeds b = true ∧ b.written.map (·.1) = ["a", "b"] ∧ resolvePath b.written ["a"] [] "P" = some ["b", "P"] ∧
      (itemAt b.written ["b", "P"]).isNone = true ∧ (itemAt b.written ["b", "Q"]).isSome = true := by
  decide +kernel

/-- Whether no struct at the top level is called `Self`. -/
def noSelf (s : Simplify.Schema) : Bool := s.definitions.all fun
  | .struct t => t.name != "Self"
  | _ => true

/-- A failure while generating leaves the files written so far behind: here Rust rejects `pub struct Self(u8)`. -/
theorem C48_fails_for_late_errors :
    let b := compile id C37_std noSelf true [("a", "struct P(u8)\n".toList), ("b", "struct Self(u8)\n".toList)]
    succeeds b = false ∧ b.written.map (·.1) = ["a"] := by
  decide +kernel

/-- A build that fails because of one file writes nothing. -/
example : (compile id C37_std (fun _ => true) true
    [("a", "struct P(u8)\n".toList), ("b", "struct P(Missing)\n".toList)]).written.isEmpty = true := by decide +kernel

end Mabo.Props
