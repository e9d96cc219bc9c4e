import Verif.Go.EnoughFile
import Verif.Props.Go
/-! C73: which Go files are valid Go. -/
namespace Mabo.Props
open Mabo.Spec Mabo.Simplify Mabo.Compiler Mabo.Go Mabo.Spec.GoBuild
open Mabo.Build (Each Loads)
open Mabo.Spec.Go (ModuleIn goPath)
open Mabo.Spec.GoRules (problems Problem)
open Mabo.Ast (DataType)
open Mabo.Parse (Text Std)

/-- C73. Whatever the Go tool writes is the text of a Go syntax tree: every file that is on disk after a success is that of the
definitions of a schema or of one of its modules. So that the syntax is right, and the following is about what is written. -/
theorem C73_written (order : Resolve.Order) (std : Std) (checked : Bool) (out : List Text) (pkg : String)
    (inputs : List (String × Text)) (ws : Writes) (h : run order std checked out pkg inputs = (.ok (), ws)) (p : List Text) (x : Text)
    (hx : onDisk ws p = some x) :
    ∃ i ∈ inputs, ∃ s, Parse.parseSchema std i.2 = some s ∧ validateSchema checked s = .ok ∧ ∃ name lines ds f,
      (ds = s.definitions ∨ ∃ path, ModuleIn s.definitions path lines ds) ∧ FileTree checked name lines ds f ∧ x = f.text std := by
  obtain ⟨a, v, b, e, hf, _⟩ := (C65_disk_exact order std checked out pkg inputs ws h p x).1 hx
  obtain ⟨values, os, h1, _⟩ := run_ok.1 h
  have hv : v ∈ values := by rw [← schemasOf_each h1, e]; simp
  obtain ⟨i, hi, hl⟩ := h1.right v hv
  refine ⟨i, hi, v.2, hl.2.1, hl.2.2, ?_⟩
  rcases hf with ⟨_, hg⟩ | ⟨path, c, inner, hm, _, hg⟩
  · obtain ⟨f, h3, h4⟩ := goFile_iff.1 hg
    exact ⟨_, _, _, f, .inl rfl, h3, h4⟩
  · obtain ⟨f, h3, h4⟩ := goFile_iff.1 hg
    exact ⟨_, _, _, f, .inr ⟨path, hm⟩, h3, h4⟩

/-- C73. The tree is the only one, and it exists exactly if there is a file. -/
theorem C73_tree_exists (std : Std) (checked : Bool) (name : String) (lines : List String) (ds : List Ast.Definition) (c : Text) :
    GoFile std checked name lines ds c ↔ ∃ f, FileTree checked name lines ds f ∧ c = f.text std := goFile_iff

/-- C73 (partial: the full claim, that every file of an accepted schema is valid Go, is refuted below). For definitions without
references and type parameters, the file breaks none of the rules of `Spec.GoRules` exactly if the definitions are `Good`. -/
theorem C73_valid_iff_partial (checked : Bool) (name : String) (lines : List String) (ds : List Ast.Definition) (f : File)
    (hr : NoReferences ds) (hg : NoGenerics ds) (h : FileTree checked name lines ds f) : problems f = [] ↔ Good name ds :=
  good_iff hr hg h

/-- C73 (partial). For all definitions, the same conditions are necessary, except that the package `buf` can also be used by a
reference into a module of that name. -/
theorem C73_valid_needs_partial (checked : Bool) (name : String) (lines : List String) (ds : List Ast.Definition) (f : File)
    (h : FileTree checked name lines ds f) (hp : problems f = []) : Needed name ds ∧
      ((∃ x gens fs, Item ds x gens fs) ∨
        ∃ t, AnyType ds t ∧ ∃ path x args tr, Piece (.external path x args tr) t ∧ path.getLast? = some "buf") :=
  ⟨needed h hp, needed_items h hp⟩

/-- C73 (partial). A file with a field of another type of the schema is not valid, unless that type is in a module called `mabo` or
`buf`, or an alias. -/
theorem C73_references_partial (checked : Bool) (name : String) (lines : List String) (ds : List Ast.Definition) (f : File)
    (h : FileTree checked name lines ds f) (hp : problems f = []) (t : DataType) (ht : FieldType ds t)
    (path : List String) (x : String) (args : List DataType) (tr : Bool) (ho : OwnPiece (.external path x args tr) t) :
    (∃ p, path.getLast? = some p ∧ (p = "mabo" ∨ p = "buf")) ∨
      (path = [] ∧ ∃ a, Ast.Definition.typeAlias a ∈ ds ∧ upperCamel a.name.toList = upperCamel x.toList) := by
  obtain ⟨es, hs, hv, _⟩ := fileTree_valid h hp
  obtain ⟨ret, y, gs, gfs, fld, hi, _, hf, he⟩ := field_of hs ht
  rcases hv.reference hi hf he ho with hm | ⟨h1, b, hb, hn⟩
  · exact .inl hm
  · obtain ⟨a, ha, he, _⟩ := of_alias hs hb
    exact .inr ⟨h1, a, ha, by rw [← he]; exact hn⟩

/-- C73. In particular no file is valid that has no `non_zero` and no tuple type in it: the import of the runtime library is unused
then. -/
theorem C73_fails_without_runtime_types (checked : Bool) (name : String) (lines : List String) (ds : List Ast.Definition) (f : File)
    (h : FileTree checked name lines ds f) (hn : ∀ t, AnyType ds t → ∀ u, Piece u t → ¬ IsRuntime u) : problems f ≠ [] :=
  fun hp => by
    obtain ⟨t, ht, u, hu, hr⟩ := (needed h hp).runtime
    exact hn t ht u hu hr

/-- C73. And no file is valid that has a struct field of the type of a struct or enum of the same file, unless an alias has its name
in Go. -/
theorem C73_fails_for_own_types (checked : Bool) (name : String) (lines : List String) (ds : List Ast.Definition) (f : File)
    (h : FileTree checked name lines ds f) (t : DataType) (ht : FieldType ds t) (x : String) (args : List DataType) (tr : Bool)
    (ho : OwnPiece (.external [] x args tr) t)
    (ha : ∀ a, Ast.Definition.typeAlias a ∈ ds → upperCamel a.name.toList ≠ upperCamel x.toList) : problems f ≠ [] := by
  intro hp
  rcases C73_references_partial checked name lines ds f h hp t ht [] x args tr ho with ⟨p, h1, _⟩ | ⟨_, a, h1, h2⟩
  · cases h1
  · exact ha a h1 h2

/-! ### Examples -/

/-- The violations in the file for these definitions. -/
def goProblems (name : String) (ds : List Ast.Definition) : Option (List Problem) :=
  ((simplifyDefinitions true ds).bind (fileOf name [])).map problems

theorem goProblems_tree {name : String} {ds : List Ast.Definition} {ps : List Problem} (h : goProblems name ds = some ps) :
    ∃ f, FileTree true name [] ds f ∧ problems f = ps := by
  simp only [goProblems, Option.map_eq_some_iff, Option.bind_eq_some_iff] at h
  obtain ⟨f, ⟨es, hs, hf⟩, rfl⟩ := h
  refine ⟨f, ⟨es, ?_, hf⟩, rfl⟩
  clear hf
  induction ds generalizing es with
  | nil => simp only [simplifyDefinitions, Option.some.injEq] at hs; subst hs; exact .nil
  | cons d ds ih =>
    simp only [simplifyDefinitions, Option.bind_eq_bind, Option.bind_eq_some_iff, Option.pure_def, Option.some.injEq] at hs
    obtain ⟨e, he, es', hes, rfl⟩ := hs
    exact .cons he (ih es' hes)

/-- A struct with one field. -/
def oneField (x : String) (t : DataType) : Ast.Definition :=
  .struct { name := "Sample", generics := [], fields := .named [{ name := x, ty := t, id := none }] }

/-- A struct, an enum, an alias and a constant. -/
def goSample : List Ast.Definition := [
  .struct { comment := ["a comment"], name := "User", generics := [], fields := .named [
    { name := "age", ty := .nonZero (.prim .u8), id := none },
    { name := "tags", ty := .option (.vec (.hashMap (.prim .string) (.hashSet (.prim .u16)))), id := some 7 },
    { name := "keys", ty := .array (.prim .bytes) 3, id := none }] },
  .enum { name := "Shape", generics := [], variants := [
    { name := "Point", fields := .unit, id := none },
    { name := "Circle", fields := .unnamed [{ ty := .prim .f64, id := none }], id := none },
    { name := "Rect", id := none, fields := .named [{ name := "width", ty := .nonZero (.vec (.option (.prim .i64))), id := none }] }] },
  .typeAlias { name := "Pair", generics := [], target := .tuple [.prim .u8, .prim .string] false },
  .const { name := "LIMIT", ty := .prim .u8, value := .int 255 }]

/-- It is valid. -/
theorem goSample_valid : goProblems "sample" goSample = some [] := by decide +kernel

theorem goSample_plain : NoReferences goSample ∧ NoGenerics goSample := by
  constructor
  · have key : ∀ t, AnyType goSample t → t ∈ [DataType.nonZero (.prim .u8), .option (.vec (.hashMap (.prim .string) (.hashSet (.prim .u16)))),
        .array (.prim .bytes) 3, .prim .f64, .nonZero (.vec (.option (.prim .i64))), .tuple [.prim .u8, .prim .string] false] := by
      rintro t (⟨d, hd, fs, hf, ht⟩ | ⟨a, ha, rfl⟩)
      · simp only [goSample, List.mem_cons, List.not_mem_nil, or_false] at hd
        rcases hd with rfl | rfl | rfl | rfl
        · cases hf with
          | struct => cases ht with | named f hf => simp only [List.mem_cons, List.not_mem_nil, or_false] at hf; rcases hf with rfl | rfl | rfl <;> simp
        · cases hf with
          | variant e v hv =>
            simp only [List.mem_cons, List.not_mem_nil, or_false] at hv
            rcases hv with rfl | rfl | rfl
            · cases ht
            · cases ht with | unnamed f hf => simp only [List.mem_cons, List.not_mem_nil, or_false] at hf; subst hf; simp
            · cases ht with | named f hf => simp only [List.mem_cons, List.not_mem_nil, or_false] at hf; subst hf; simp
        · cases hf
        · cases hf
      · simp only [goSample, List.mem_cons, List.not_mem_nil, or_false, Ast.Definition.typeAlias.injEq, reduceCtorEq, false_or] at ha
        subst ha; simp
    intro t ht path x args tr hp
    have := key t ht
    simp only [List.mem_cons, List.not_mem_nil, or_false] at this
    rcases this with rfl | rfl | rfl | rfl | rfl | rfl
    · cases hp with | nonZero hp => cases hp
    · cases hp with
      | option hp => cases hp with
        | vec hp => cases hp with
          | hashMapKey hp => cases hp
          | hashMapValue hp => cases hp with | hashSet hp => cases hp
    · cases hp with | array hp => cases hp
    · cases hp
    · cases hp with | nonZero hp => cases hp with | vec hp => cases hp with | option hp => cases hp
    · cases hp with
      | tuple hm hp =>
        simp only [List.mem_cons, List.not_mem_nil, or_false] at hm
        rcases hm with rfl | rfl <;> cases hp
  · intro x gens fs hi
    cases hi with
    | struct s hs =>
      simp only [goSample, List.mem_cons, List.not_mem_nil, or_false, Ast.Definition.struct.injEq, reduceCtorEq] at hs
      subst hs; rfl
    | variant e v he hv =>
      simp only [goSample, List.mem_cons, List.not_mem_nil, or_false, Ast.Definition.enum.injEq, reduceCtorEq, false_or] at he
      subst he; rfl

/-- So that it is `Good`. -/
theorem goSample_good : Good "sample" goSample := by
  obtain ⟨f, h1, h2⟩ := goProblems_tree goSample_valid
  exact (C73_valid_iff_partial true _ _ _ f goSample_plain.1 goSample_plain.2 h1).1 h2

/-- Refutation of the full C73: schemas that are valid and translated, and what is wrong with the code. A field of a simple type … -/
theorem C73_fails_for_plain_fields : validateSchema true ⟨[], [oneField "a" (.prim .u8)]⟩ = .ok ∧
    goProblems "p" [oneField "a" (.prim .u8)] = some [.unusedImport "mabo".toList] := by decide +kernel

/-- … of the type of another struct … -/
theorem C73_fails_for_struct_fields :
    let ds := [Ast.Definition.struct { name := "Other", generics := [], fields := .unit },
      oneField "a" (.nonZero (.prim .u8)), .struct { name := "S", generics := [], fields := .unnamed [{ ty := .external [] "Other" [] false, id := none }] }]
    validateSchema true ⟨[], ds⟩ = .ok ∧ goProblems "p" ds = some [.resultCount] := by decide +kernel

/-- … a type parameter … -/
theorem C73_fails_for_generics :
    let ds := [oneField "a" (.nonZero (.prim .u8)),
      Ast.Definition.struct { name := "S", generics := ["T"], fields := .unnamed [{ ty := .external [] "T" [] false, id := none }] }]
    validateSchema true ⟨[], ds⟩ = .ok ∧
      goProblems "p" ds = some [.undefined "T".toList, .undefined "T".toList, .noMember "Decode".toList, .undefined "T".toList] := by decide +kernel

/-- … a tuple … -/
theorem C73_fails_for_tuples :
    let ds := [oneField "a" (.tuple [.prim .u8, .prim .u8] false)]
    validateSchema true ⟨[], ds⟩ = .ok ∧ (goProblems "p" ds).map (fun ps => decide (Problem.argumentCount ∈ ps)) = some true := by decide +kernel

/-- … an integer of 128 bits … -/
theorem C73_fails_for_wide_integers :
    let ds := [oneField "a" (.vec (.prim .u128)), .typeAlias { name := "A", generics := [], target := .nonZero (.prim .u8) }]
    validateSchema true ⟨[], ds⟩ = .ok ∧ (goProblems "p" ds).map (fun ps => decide (Problem.undefined "big".toList ∈ ps)) = some true := by decide +kernel

/-- … a map with bytes as keys … -/
theorem C73_fails_for_map_keys :
    let ds := [oneField "a" (.hashSet (.prim .bytes)), .typeAlias { name := "A", generics := [], target := .nonZero (.prim .u8) }]
    validateSchema true ⟨[], ds⟩ = .ok ∧ (goProblems "p" ds).map (fun ps => decide (Problem.mapKey ∈ ps)) = some true := by decide +kernel

/-- … a field with the name of a keyword, or of a method … -/
theorem C73_fails_for_names :
    validateSchema true ⟨[], [oneField "type" (.nonZero (.prim .u8))]⟩ = .ok ∧
    goProblems "p" [oneField "type" (.nonZero (.prim .u8))] = some [.keyword "type".toList] ∧
    validateSchema true ⟨[], [oneField "size" (.nonZero (.prim .u8))]⟩ = .ok ∧
    goProblems "p" [oneField "size" (.nonZero (.prim .u8))] = some [.redeclared] := by decide +kernel

/-- … or a constant that is too large. -/
theorem C73_fails_for_constants :
    let ds := [oneField "a" (.nonZero (.prim .u8)), .const { name := "LIMIT", ty := .prim .u8, value := .int 256 }]
    validateSchema true ⟨[], ds⟩ = .ok ∧ goProblems "p" ds = some [.value] := by decide +kernel

end Mabo.Props
