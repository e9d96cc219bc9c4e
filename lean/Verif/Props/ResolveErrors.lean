import Verif.Compiler.ResolveErrors
import Verif.Props.Resolve
/-!
C72: the errors of the resolver. What each of them says is written down in `Spec/ResolveErrors.lean`.
-/
namespace Mabo.Props
open Mabo.Ast Mabo.Spec Mabo.Compiler Mabo.Resolve

/-- C72 (partial: of a path through an imported module only the first name counts, see below). The error is shown with the
source of a schema, and it is about that schema: one of its top-level imports, or a type that one of its fields mentions and that
has no meaning. What the error says — which module, schema or definition is missing and where, how many type arguments there are
and how many type parameters, what kind of definition was found — is the case. -/
theorem C72_error_true_partial (order : Order) (ho : IsOrder order) (values : List (String × Ast.Schema)) (hv : Validated values)
    (stem : String) (e : ResolveError) (h : resolveReport order values = some (stem, e)) :
    ∃ s, (stem, s) ∈ values ∧ Explains values stem s e := by
  obtain ⟨m, hm, e1, h⟩ := reportFrom_some h
  obtain ⟨v, hvm, rfl⟩ := List.mem_map.1 hm
  cases e1
  exact ⟨v.2, hvm, resolveOne_err ho hv.known (hv.known.good _ hvm) h⟩

/-- The reported errors are all the errors. -/
theorem C72_reported_iff (order : Order) (values : List (String × Ast.Schema)) (e : ResolveError) :
    resolveSchemas order values = .err e ↔ ∃ stem, resolveReport order values = some (stem, e) :=
  reportFrom_iff

/-- C72. Schemas that do not resolve get an error with a true explanation: the resolver does not fail in another way (an import has at least
one name, as the parser sees to). -/
theorem C72_rejection_explained (order : Order) (ho : IsOrder order) (values : List (String × Ast.Schema)) (hv : Validated values)
    (h : ¬ ∀ v ∈ values, ImportsOk values v.2 ∧ TypesResolve values v.2)
    (hi : ∀ v ∈ values, ∀ i, Definition.import i ∈ v.2.definitions → i.segments ≠ []) :
    ∃ stem s e, (stem, s) ∈ values ∧ resolveReport order values = some (stem, e) ∧ Explains values stem s e := by
  cases hr : resolveSchemas order values with
  | ok => exact absurd ((C32_resolve_exact order ho values hv).1 hr) h
  | panic =>
    obtain ⟨m, hm, hp⟩ := tryForEach_fail (by simp) hr
    obtain ⟨v, hvm, rfl⟩ := List.mem_map.1 hm
    obtain ⟨i, him, hs⟩ := resolveOne_panic hp
    exact absurd hs (hi v hvm i (mem_importsOf.1 him))
  | err e =>
    obtain ⟨stem, hs⟩ := (C72_reported_iff order values e).1 hr
    obtain ⟨s, hm, he⟩ := C72_error_true_partial order ho values hv stem e hs
    exact ⟨stem, s, e, hm, hs, he⟩

/-- C72. No error is about a reference that has a meaning. -/
theorem C72_no_false_alarm (order : Order) (ho : IsOrder order) (values : List (String × Ast.Schema)) (hv : Validated values)
    (stem : String) (e : ResolveError) (h : resolveReport order values = some (stem, e))
    (hall : ∀ s, (stem, s) ∈ values → TypesResolve values s) : ∃ s i ie, (stem, s) ∈ values ∧ e = .imp ie ∧
      Definition.import i ∈ s.definitions ∧ ImportProblem values i ie := by
  obtain ⟨s, hs, he⟩ := C72_error_true_partial order ho values hv stem e h
  cases he with
  | imp hi hp => exact ⟨s, _, _, hs, rfl, hi, hp⟩
  | ref h1 h2 h3 h4 _ => exact absurd (hall s hs _ _ _ _ _ (scope_scopeAt.2 ⟨_, h1⟩) h2 h3) h4

/-! ### Examples: every kind of error -/

/-- A schema with an import, if any, and one field of the given type. -/
def useOf (i : Option Import) (t : DataType) : Ast.Schema :=
  ⟨[], (i.map Definition.import).toList ++ [.struct { name := "S", generics := [], fields := .unnamed [⟨t, none⟩] }]⟩

/-- `type A = u8; const K: u8 = 1; struct P<T>(T); mod m { struct P(u8); }`. -/
def library : Ast.Schema := ⟨[], [
  .typeAlias { name := "A", generics := [], target := .prim .u8 },
  .const { name := "K", ty := .prim .u8, value := .int 1 },
  .struct { name := "P", generics := ["T"], fields := .unnamed [⟨.external [] "T" [] false, none⟩] },
  .module [] "m" [.struct { name := "P", generics := [], fields := .unnamed [⟨.prim .u8, none⟩] }]]⟩

/-- What is reported for `a` with `b = library`. -/
def reportOf (i : Option Import) (t : DataType) : Option (String × ResolveError) :=
  resolveReport id [("b", library), ("a", useOf i t)]

example : reportOf none (.prim .u8) = none := by decide +kernel
example : reportOf (some ⟨["c"], none⟩) (.prim .u8) = some ("a", .imp (.missingSchema "c")) := by decide +kernel
example : reportOf (some ⟨["b", "m", "n", "k"], none⟩) (.prim .u8) = some ("a", .imp (.missingModule "n" ["b", "m"])) := by
  decide +kernel
example : reportOf (some ⟨["b", "m"], some "Q"⟩) (.prim .u8) = some ("a", .imp (.missingDefinition "Q" ["b", "m"])) := by
  decide +kernel
example : reportOf (some ⟨["b"], some "A"⟩) (.prim .u8) = some ("a", .imp (.invalidKind "alias")) := by decide +kernel
example : reportOf (some ⟨["b"], some "K"⟩) (.prim .u8) = some ("a", .imp (.invalidKind "const")) := by decide +kernel
example : reportOf none (.external ["m"] "P" [] false) = some ("a", .loc (.missingModule "m" ["a"])) := by decide +kernel
example : reportOf none (.external [] "P" [] false) = some ("a", .loc (.missingDefinition "P" ["a"])) := by decide +kernel
example : reportOf none (.external [] "S" [.prim .u8] false) = some ("a", .loc (.genericsCount 0 1)) := by decide +kernel
example : reportOf (some ⟨["b"], some "P"⟩) (.external [] "P" [] false) = some ("a", .remote (.genericsCount 0 1)) := by
  decide +kernel
example : reportOf (some ⟨["b"], some "P"⟩) (.external [] "Q" [] false) = some ("a", .remote (.missingImport [] "Q")) := by
  decide +kernel
example : reportOf (some ⟨["b", "m"], none⟩) (.external ["n"] "P" [] false) =
    some ("a", .remote (.missingImport ["n"] "P")) := by decide +kernel
example : reportOf (some ⟨["b", "m"], none⟩) (.external ["m"] "Q" [] false) =
    some ("a", .remote (.missingDefinition "Q" ["b", "m"])) := by decide +kernel
example : reportOf (some ⟨["b", "m"], none⟩) (.external ["m"] "P" [.prim .u8] false) =
    some ("a", .remote (.genericsCount 1 0)) := by decide +kernel
example : reportOf (some ⟨["b"], none⟩) (.external ["b"] "K" [] false) = some ("a", .remote (.invalidKind "constant")) := by
  decide +kernel

/-- The library and a schema that uses it pass validation. -/
theorem validated_library (i : Option Import) (t : DataType) (h : ∃ c, validateSchema c (useOf i t) = .ok) :
    Validated [("b", library), ("a", useOf i t)] :=
  ⟨(by decide : ["b", "a"].Nodup), fun v hv => by
    rcases List.mem_cons.1 hv with rfl | hv
    · exact ⟨true, by decide +kernel⟩
    · rcases List.mem_cons.1 hv with rfl | hv
      · exact h
      · cases hv⟩

/-- The theorem applied: `P` needs one argument and is given none. -/
example : ∃ s, ("a", s) ∈ [("b", library), ("a", useOf (some ⟨["b"], some "P"⟩) (.external [] "P" [] false))] ∧
    Explains [("b", library), ("a", useOf (some ⟨["b"], some "P"⟩) (.external [] "P" [] false))] "a" s
      (.remote (.genericsCount 0 1)) :=
  C72_error_true_partial id isOrder_id _ (validated_library _ _ ⟨true, by decide +kernel⟩) "a" _ (by decide +kernel)

/-! ### Where the full C72 fails -/

/-- `use b; struct S(b::m::P)`: the type exists and takes no arguments … -/
def schemaNested : Ast.Schema := useOf (some ⟨["b"], none⟩) (.external ["b", "m"] "P" [] false)

/-- Refutation: … but the error compares with `P<T>` in the root of `b` instead of `P` in `b::m`. -/
theorem C72_fails_for_nested_paths : Validated [("b", library), ("a", schemaNested)] ∧
    (∃ out, ScopeAt library.definitions ["m"] out ∧ Declares out "P" 0) ∧
    resolveReport id [("b", library), ("a", schemaNested)] = some ("a", .remote (.genericsCount 0 1)) :=
  ⟨validated_library _ _ ⟨true, by decide +kernel⟩,
    ⟨_, .enter (comment := []) (inner := [.struct { name := "P", generics := [], fields := .unnamed [⟨.prim .u8, none⟩] }])
      (by simp [library]) (.here _), .struct _ (List.mem_cons_self ..) rfl rfl⟩, by decide +kernel⟩

/-- Refutation: a type imported through a module is said to be in a missing module of the schema itself, although the module is
imported and has it (`C33_fails_for_module_imports`). -/
theorem C72_fails_for_module_imports :
    resolveReport id [("b", library), ("a", useOf (some ⟨["b", "m"], none⟩) (.external ["m"] "P" [] false))] =
      some ("a", .loc (.missingModule "m" ["a"])) := by decide +kernel

/-- Refutation: the same mistake is described in two ways, "alias" in an import and "type alias" elsewhere. -/
theorem C72_two_words :
    reportOf (some ⟨["b"], some "A"⟩) (.prim .u8) = some ("a", .imp (.invalidKind "alias")) ∧
    reportOf (some ⟨["b"], none⟩) (.external ["b"] "A" [] false) = some ("a", .remote (.invalidKind "type alias")) :=
  ⟨by decide +kernel, by decide +kernel⟩

end Mabo.Props
