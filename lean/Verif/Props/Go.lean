import Verif.Go.ProjectLemmas
import Verif.Props.Validate
import Verif.Props.Build
/-! C64–C65: when the Go generator finishes, and which files it writes. -/
namespace Mabo.Props
open Mabo.Spec Mabo.Simplify Mabo.Compiler Mabo.Go
open Mabo.Build (Each Loads)
open Mabo.Spec.Go (ModuleIn goPath SmallArrays)
open Mabo.Parse (Text Std)

/-! ### C64: the generator finishes -/

/-- C64. The Go generator finishes, instead of ending in a panic, exactly on the schemas that are `Spec.Go.Supported`,
whatever the package is called and whether or not they were validated. -/
theorem C64_finishes_exact (std : Std) (pkg : String) (checked : Bool) (s : Ast.Schema) (t : Simplify.Schema)
    (h : simplifySchema checked s = some t) : (∃ o, renderSchema std pkg t = some o) ↔ Spec.Go.Supported s := by
  rw [← renderSchema_isSome (std := std) (pkg := pkg) h, Option.isSome_iff_exists]

/-- C64 (partial: the full claim, for all validated schemas, is refuted below). A schema that passes validation, in which
`non_zero` is only used as intended, constants have constant types and arrays have 1 to 32 elements, is translated. -/
theorem C64_validated_finishes_partial (std : Std) (pkg : String) (checked : Bool) (s : Ast.Schema) (t : Simplify.Schema)
    (hv : validateSchema checked s = .ok) (hn : NonZeroChecked s) (ha : SmallArrays s)
    (h : simplifySchema checked s = some t) : ∃ o, renderSchema std pkg t = some o := by
  rw [C64_finishes_exact std pkg checked s t h]
  have hv := ((C25_validate_exact checked s).1 hv).1
  have name : ∀ a, NonZeroAble a → Spec.Go.NonZeroName a := by
    intro a h
    cases a with
    | prim p => exact ⟨h.1, h.2.2.2.1, h.2.2.2.2⟩
    | vec _ => trivial
    | hashMap _ _ => trivial
    | hashSet _ => trivial
    | _ => exact h.elim
  refine ⟨fun d hd fs hf u hu => ?_, fun a ha x hp => name _ (hn.nonZero _ ha _ (.alias a) x hp), hn.consts⟩
  have hdt : DefType d u := .field hf hu
  have hnz := hn.nonZero d hd u hdt
  refine ⟨fun a hp => name a (hnz a hp), fun w hp => ?_⟩
  cases w with
  | nonZero a => exact hnz a (Generator.ownPiece_piece hp)
  | tuple ts tr =>
    rcases Generator.ownPiece_part hp with hp | ⟨a, ha, hp⟩
    · exact hv.tuples d hd u hdt ts tr hp
    · exact hn.inner d hd u hdt a ha ts tr hp
  | array x n => exact ha d hd fs hf u hu x n hp
  | _ => trivial

/-- The result of the Go generator for a schema. -/
def goOf (s : Ast.Schema) : Option Output := (simplifySchema true s).bind (renderSchema C37_std "p")

/-- Refutation of the full C64: valid and supported by the Rust generator, but the Go generator panics at an array of more
than 32 elements. -/
theorem C64_fails_for_large_arrays : let s : Ast.Schema := ⟨[], [.struct
      { name := "S", generics := [], fields := .unnamed [⟨.array (.prim .u8) 33, none⟩] }]⟩
    validateSchema true s = .ok ∧ ((simplifySchema true s).map Generator.compileOk) = some true ∧
      (goOf s).isNone = true := by
  decide +kernel

/-- … an empty array … -/
theorem C64_fails_for_empty_arrays : let s : Ast.Schema := ⟨[], [.struct
      { name := "S", generics := [], fields := .unnamed [⟨.array (.prim .u8) 0, none⟩] }]⟩
    validateSchema true s = .ok ∧ ((simplifySchema true s).map Generator.compileOk) = some true ∧
      (goOf s).isNone = true := by
  decide +kernel

/-- … or, as the Rust generator, at `non_zero<f32>`, for which there is a Go type but no functions: in an alias it is
fine. -/
theorem C64_fails_for_non_zero_floats :
    let s : Ast.Schema := ⟨[], [.struct
      { name := "S", generics := [], fields := .unnamed [⟨.nonZero (.prim .f32), none⟩] }]⟩
    let a : Ast.Schema := ⟨[], [.typeAlias { name := "A", generics := [], target := .nonZero (.prim .f32) }]⟩
    validateSchema true s = .ok ∧ (goOf s).isNone = true ∧ (goOf a).isSome = true := by
  decide +kernel

example : (goOf sample).isSome = true := by decide +kernel
example : validateSchema true sample = .ok := sample_valid

/-! ### C65: the written files -/

/-- The files that belong to a schema: one for its root and one for each module, at any depth, each with the text of its own
definitions. -/
def FileOf (std : Std) (checked : Bool) (out : List Text) (pkg : String) (s : Ast.Schema) (p : List Text) (x : Text) : Prop :=
  (p = goPath out [pkg] ∧ GoFile std checked pkg [] s.definitions x) ∨
  ∃ path comment inner, ModuleIn s.definitions path comment inner ∧ p = goPath out (pkg :: path) ∧
    GoFile std checked (path.getLast?.getD "") comment inner x

theorem fileOf_unique {std : Std} {checked : Bool} {out : List Text} {pkg : String} {s : Ast.Schema} (hv : ValidSchema s)
    {p : List Text} {x y : Text} (h : FileOf std checked out pkg s p x) (h' : FileOf std checked out pkg s p y) : x = y := by
  rcases h with ⟨rfl, h⟩ | ⟨path, c, inner, h1, rfl, h⟩
  · rcases h' with ⟨_, h'⟩ | ⟨path, c, inner, h1, h2, h'⟩
    · exact goFile_unique h h'
    · have := goPath_inj h2
      cases path with
      | nil => exact absurd rfl (moduleIn_ne h1)
      | cons _ _ => cases this
  · rcases h' with ⟨h2, h'⟩ | ⟨path', c', inner', h1', h2, h'⟩
    · have := goPath_inj h2
      cases path with
      | nil => exact absurd rfl (moduleIn_ne h1)
      | cons _ _ => cases this
    · have := goPath_inj h2
      injection this with _ this
      subst this
      obtain ⟨rfl, rfl⟩ := valid_moduleIn hv h1 h1'
      exact goFile_unique h h'

/-- C65. The tool succeeds exactly if every file parses, every schema is valid, all names resolve and the Go generator
supports every schema. -/
theorem C65_succeeds_iff (order : Resolve.Order) (std : Std) (checked : Bool) (out : List Text) (pkg : String)
    (inputs : List (String × Text)) :
    (run order std checked out pkg inputs).1 = .ok () ↔
      (∀ i ∈ inputs, ∃ s, Parse.parseSchema std i.2 = some s ∧ validateSchema checked s = .ok ∧ Spec.Go.Supported s) ∧
      Resolve.resolveSchemas order (schemasOf std inputs) = .ok := by
  constructor
  · intro h
    obtain ⟨values, os, h1, h2, h3, _⟩ := run_ok.1 (Prod.ext h rfl : run order std checked out pkg inputs = (.ok (), _))
    refine ⟨fun i hi => ?_, by rw [schemasOf_each h1]; exact h2⟩
    obtain ⟨v, hv, hl⟩ := h1.left i hi
    obtain ⟨o, _, t, ht, ho⟩ := h3.left v hv
    exact ⟨v.2, hl.2.1, hl.2.2, (C64_finishes_exact std pkg checked v.2 t ht).1 ⟨o, ho⟩⟩
  · rintro ⟨h1, h2⟩
    obtain ⟨values, hv⟩ := Each.exists (R := Loads std checked) (as := inputs) fun i hi => by
      obtain ⟨s, h3, h4, _⟩ := h1 i hi
      exact ⟨(i.1, s), rfl, h3, h4⟩
    obtain ⟨os, ho⟩ := Each.exists (R := Makes std checked pkg) (as := values) fun v hvm => by
      obtain ⟨i, hi, hl⟩ := hv.right v hvm
      obtain ⟨s, h3, h4, h5⟩ := h1 i hi
      rw [hl.2.1] at h3; cases h3
      obtain ⟨t, ht, _⟩ := C31_simplify checked v.2 ((C25_validate_exact checked v.2).1 h4).2
      obtain ⟨o, ho⟩ := (C64_finishes_exact std pkg checked v.2 t ht).2 h5
      exact ⟨o, t, ht, ho⟩
    rw [schemasOf_each hv] at h2
    rw [run_ok.2 ⟨values, os, hv, h2, ho, rfl⟩]

/-- C65. If one file does not parse or is not valid, or a name does not resolve, nothing is written. -/
theorem C65_nothing_on_bad_input (order : Resolve.Order) (std : Std) (checked : Bool) (out : List Text) (pkg : String)
    (inputs : List (String × Text))
    (h : (∃ i ∈ inputs, ∀ s, Parse.parseSchema std i.2 = some s → validateSchema checked s ≠ .ok) ∨
      Resolve.resolveSchemas order (schemasOf std inputs) ≠ .ok) :
    (run order std checked out pkg inputs).1 ≠ .ok () ∧ (run order std checked out pkg inputs).2 = [] := by
  simp only [run]
  cases hl : Build.loadAll std checked inputs with
  | err => exact ⟨(nomatch ·), rfl⟩
  | panic => exact ⟨(nomatch ·), rfl⟩
  | ok values =>
    have he := Build.loadAll_ok.1 hl
    cases hr : Resolve.resolveSchemas order values with
    | err _ => simp only [hr]; exact ⟨(nomatch ·), trivial⟩
    | panic => simp only [hr]; exact ⟨(nomatch ·), trivial⟩
    | ok =>
      exfalso
      rcases h with ⟨i, hi, h⟩ | h
      · obtain ⟨v, _, hv⟩ := he.left i hi
        exact h v.2 hv.2.1 hv.2.2
      · rw [schemasOf_each he] at h; exact h hr

theorem mem_each {std : Std} {checked : Bool} {out : List Text} {pkg : String} {vs : List (String × Ast.Schema)}
    {os : List Output} (h : Each (Makes std checked pkg) vs os) (p : List Text) (x : Text) :
    (p, x) ∈ writeOutputs out os ↔ ∃ v ∈ vs, FileOf std checked out pkg v.2 p x := by
  induction h with
  | nil => simp [writeOutputs]
  | cons hm _ ih =>
    obtain ⟨t, h1, h2⟩ := hm
    rw [writeOutputs, List.mem_append, ih, schema_files h1 h2]
    simp [FileOf]

/-- C65. What is on disk after the tool succeeded, for any number of schema files: each path holds the text of the last schema
file that has a file there. -/
theorem C65_disk_exact (order : Resolve.Order) (std : Std) (checked : Bool) (out : List Text) (pkg : String)
    (inputs : List (String × Text)) (ws : Writes) (h : run order std checked out pkg inputs = (.ok (), ws))
    (p : List Text) (x : Text) :
    onDisk ws p = some x ↔ ∃ a v b, schemasOf std inputs = a ++ v :: b ∧ FileOf std checked out pkg v.2 p x ∧
      ∀ w ∈ b, ¬ ∃ y, FileOf std checked out pkg w.2 p y := by
  obtain ⟨values, os, h1, h2, h3, rfl⟩ := run_ok.1 h
  rw [schemasOf_each h1]
  have hv : ∀ v ∈ values, ValidSchema v.2 := fun v hvm => by
    obtain ⟨i, _, hl⟩ := h1.right v hvm
    exact ((C25_validate_exact checked v.2).1 hl.2.2).1
  clear h1 h2 h
  induction h3 with
  | nil =>
    constructor
    · intro h; cases h
    · rintro ⟨a, v, b, h, _⟩; cases a <;> cases h
  | @cons v o vs os hm hr ih =>
    have ih := ih fun v hvm => hv v (List.mem_cons_of_mem _ hvm)
    rw [writeOutputs, onDisk_append]
    cases hd : onDisk (writeOutputs out os) p with
    | some y =>
      rw [hd] at ih
      constructor
      · intro e
        have e : some y = some x := e
        cases e
        obtain ⟨a, v', b, e, h5⟩ := ih.1 rfl
        exact ⟨v :: a, v', b, by rw [e]; rfl, h5⟩
      · rintro ⟨a, v', b, e, h5, h6⟩
        cases a with
        | nil =>
          injection e with e1 e2
          subst e1 e2
          obtain ⟨w, hw, hf⟩ := (mem_each hr p y).1 (onDisk_mem hd)
          exact absurd ⟨y, hf⟩ (h6 w hw)
        | cons a0 a =>
          injection e with e1 e2
          have := ih.2 ⟨a, v', b, e2, h5, h6⟩
          simpa using this
    | none =>
      have hno := onDisk_none.1 hd
      simp only [Option.none_or]
      obtain ⟨t, ht, ho⟩ := hm
      constructor
      · intro hx
        refine ⟨[], v, vs, rfl, (schema_files ht ho p x).1 (onDisk_mem hx), fun w hw ⟨y, hy⟩ => ?_⟩
        exact hno y ((mem_each hr p y).2 ⟨w, hw, hy⟩)
      · rintro ⟨a, v', b, e, h5, h6⟩
        cases a with
        | nil =>
          injection e with e1 e2
          subst e1 e2
          refine onDisk_some ((schema_files ht ho p x).2 h5) fun y hy => ?_
          exact fileOf_unique (hv v (List.mem_cons_self ..)) ((schema_files ht ho p y).1 hy) h5
        | cons a0 a =>
          injection e with e1 e2
          exact absurd ((mem_each hr p x).2 ⟨v', by rw [e2]; simp, h5⟩) (hno x)

/-- C65 (partial: for projects of one schema file; refuted for several below). On disk are exactly the file of the package and
one file for each module, at any depth, each with the text of all its definitions. -/
theorem C65_files_partial (order : Resolve.Order) (std : Std) (checked : Bool) (out : List Text) (pkg stem : String)
    (text : Text) (s : Ast.Schema) (ws : Writes) (hp : Parse.parseSchema std text = some s)
    (h : run order std checked out pkg [(stem, text)] = (.ok (), ws)) (p : List Text) (x : Text) :
    onDisk ws p = some x ↔ FileOf std checked out pkg s p x := by
  rw [C65_disk_exact order std checked out pkg _ ws h]
  have : schemasOf std [(stem, text)] = [(stem, s)] := by simp [schemasOf, hp]
  rw [this]
  constructor
  · rintro ⟨a, v, b, e, h1, _⟩
    cases a with
    | nil => injection e with e1 _; rw [← e1] at h1; exact h1
    | cons a0 a => injection e with _ e; cases a <;> cases e
  · intro h1
    exact ⟨[], (stem, s), [], rfl, h1, by simp⟩

/-- Refutation of the full C65, for every project: after success, the file of the package has the definitions of the last
schema file, and nothing of the others. -/
theorem C65_last_file_wins (order : Resolve.Order) (std : Std) (checked : Bool) (out : List Text) (pkg : String)
    (inputs : List (String × Text)) (stem : String) (text : Text) (s : Ast.Schema) (ws : Writes)
    (hp : Parse.parseSchema std text = some s)
    (h : run order std checked out pkg (inputs ++ [(stem, text)]) = (.ok (), ws)) (x : Text) :
    onDisk ws (goPath out [pkg]) = some x ↔ GoFile std checked pkg [] s.definitions x := by
  rw [C65_disk_exact order std checked out pkg _ ws h]
  have hf : ∀ (s : Ast.Schema) (x : Text), FileOf std checked out pkg s (goPath out [pkg]) x ↔
      GoFile std checked pkg [] s.definitions x := by
    intro s x
    constructor
    · rintro (⟨_, h⟩ | ⟨path, c, inner, h1, h2, _⟩)
      · exact h
      · have := goPath_inj h2
        cases path with
        | nil => exact absurd rfl (moduleIn_ne h1)
        | cons _ _ => cases this
    · intro h; exact .inl ⟨rfl, h⟩
  obtain ⟨values, os, h1, h2, h3, e⟩ := run_ok.1 h
  have he : schemasOf std (inputs ++ [(stem, text)]) = schemasOf std inputs ++ [(stem, s)] := by
    simp [schemasOf, List.filterMap_append, hp]
  have hev := schemasOf_each h1
  have hall : ∀ v ∈ values, ∃ y, GoFile std checked pkg [] v.2.definitions y := by
    intro v hvm
    obtain ⟨o, _, t, ht, ho⟩ := h3.left v hvm
    have hw : ∃ q y, writeOutput [] o = (goPath [] [pkg], y) :: q := by
      cases o with
      | mk n c m =>
        have hn : n = pkg := by
          simp only [renderSchema, Option.bind_eq_bind, Option.bind_eq_some_iff, Option.pure_def, Option.some.injEq] at ho
          obtain ⟨_, _, _, _, e⟩ := ho
          cases e; rfl
        rw [hn]
        exact ⟨_, c, by rw [writeOutput, goPath_one]⟩
    obtain ⟨q, y, hq⟩ := hw
    have := (schema_files (out := []) ht ho (goPath [] [pkg]) y).1 (by rw [hq]; exact List.mem_cons_self ..)
    rcases this with ⟨_, h⟩ | ⟨path, c, inner, h1, h2, _⟩
    · exact ⟨y, h⟩
    · have := goPath_inj h2
      cases path with
      | nil => exact absurd rfl (moduleIn_ne h1)
      | cons _ _ => cases this
  rw [he]
  rw [← hev, he] at hall
  constructor
  · rintro ⟨a, v, b, e, h5, h6⟩
    have hb : b = [] := by
      cases hb : b with
      | nil => rfl
      | cons w b' =>
        have hw : w ∈ b := by rw [hb]; simp
        obtain ⟨y, hy⟩ := hall w (by rw [e]; simp [hw])
        exact absurd ⟨y, (hf w.2 y).2 hy⟩ (h6 w hw)
    subst hb
    have := (List.append_inj' e rfl).2
    injection this with e1 _
    rw [← e1] at h5
    exact (hf s x).1 h5
  · intro hx
    exact ⟨schemasOf std inputs, (stem, s), [], rfl, (hf s x).2 hx, by simp⟩

/-- How a run ended and the paths it wrote to. -/
def goRun (inputs : List (String × String)) : Bool × List (List String) :=
  let r := run id C37_std true [] "p" (inputs.map fun i => (i.1, i.2.toList))
  ((match r.1 with | .ok () => true | _ => false), r.2.map fun w => w.1.map String.ofList)

/-- Two schema files, one of which uses the other: both are written to the same file, so one of them is lost. -/
theorem C65_fails_for_several_files :
    goRun [("a", "use b::Q;\nstruct P(Q)\n"), ("b", "struct Q(u8)\n")] = (true, [["p", "p.go"], ["p", "p.go"]]) := by
  decide +kernel

/-- An error in code generation leaves the files of earlier schemas behind. -/
theorem C65_fails_for_late_errors :
    goRun [("a", "mod m { struct P(u8) }\n"), ("b", "struct Q([u8; 40])\n")] =
      (false, [["p", "p.go"], ["p", "m", "m.go"]]) := by
  decide +kernel

/-- The hypotheses of `C65_files_partial` are met: a schema with nested modules. -/
example : goRun [("a", "struct S(u8)\nmod m { mod n { struct P(u8) } }\nmod n { enum E { A } }\n")] =
    (true, [["p", "p.go"], ["p", "m", "m.go"], ["p", "m", "n", "n.go"], ["p", "n", "n.go"]]) := by
  decide +kernel

end Mabo.Props
