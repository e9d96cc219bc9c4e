import Verif.Compiler.ResolveLemmas
import Verif.Props.Validate
/-!
C32, C33: name resolution, for every list of schemas. The specification is in `Spec/Resolve.lean`.
-/
namespace Mabo.Props
open Mabo.Ast Mabo.Spec Mabo.Compiler Mabo.Resolve

/-- The callers (mabo-build lib.rs:170-195, mabo-go main.rs:50-67) validate every schema before resolving, and give
schemas different names. -/
structure Validated (values : List (String × Ast.Schema)) : Prop where
  names : (values.map (·.1)).Nodup
  valid : ∀ v ∈ values, ∃ checked, validateSchema checked v.2 = .ok

theorem Validated.known {values : List (String × Ast.Schema)} (h : Validated values) : Known values :=
  ⟨h.names, fun v hv => by
    obtain ⟨checked, hc⟩ := h.valid v hv
    exact good_of_names ((C25_validate_exact checked v.2).1 hc).1.names⟩

/-- C32 and C33: resolution of validated schemas accepts exactly those in which all top-level imports exist and all types
mentioned in fields are type parameters, declared in reach, or imported by name — whatever the order in which the
resolver's hash maps are iterated. -/
theorem C32_resolve_exact (order : Order) (ho : IsOrder order) (values : List (String × Ast.Schema))
    (hv : Validated values) : resolveSchemas order values = .ok ↔
      ∀ v ∈ values, ImportsOk values v.2 ∧ TypesResolve values v.2 :=
  resolveSchemas_ok ho hv.known

/-- C32. If resolution succeeds, every type mentioned in a field, in any module of any schema, has a meaning. -/
theorem C32_sound (order : Order) (ho : IsOrder order) (values : List (String × Ast.Schema)) (hv : Validated values)
    (h : resolveSchemas order values = .ok) (name : String) (s : Ast.Schema) (hs : (name, s) ∈ values)
    (scope : List Definition) (d : Definition) (hscope : Scope s scope) (hd : d ∈ scope) (path : List String)
    (ty : String) (args : List DataType) (hm : Mentioned d path ty args) : Resolves values s scope d path ty args :=
  ((C32_resolve_exact order ho values hv).1 h _ hs).2 scope d path ty args hscope hd hm

/-- C32. A reference to something that does not exist anywhere in the schemas is always rejected. -/
theorem C32_dangling_rejected (order : Order) (ho : IsOrder order) (values : List (String × Ast.Schema))
    (hv : Validated values) (name : String) (s : Ast.Schema) (hs : (name, s) ∈ values) (scope : List Definition)
    (d : Definition) (hscope : Scope s scope) (hd : d ∈ scope) (path : List String) (ty : String) (args : List DataType)
    (hm : Mentioned d path ty args) (hp : ty ∉ typeParams d)
    (hno : ∀ n' s' ds, (n', s') ∈ values → Scope s' ds → ∀ n, ¬ Declares ds ty n) : resolveSchemas order values ≠ .ok := by
  intro h
  cases C32_sound order ho values hv h name s hs scope d hscope hd path ty args hm with
  | param h => exact hp h
  | loc h1 h2 =>
    obtain ⟨p, hp⟩ := scope_scopeAt.1 hscope
    have : ∀ {a b : List Definition} {q : List String}, ScopeAt a q b → Scope s a → Scope s b := by
      intro a b q h
      induction h with
      | here ds => exact id
      | enter hm _ ih => exact fun hs => ih (.module hs hm)
    exact hno name s _ hs (this h1 hscope) _ h2
  | imported h1 h2 h3 h4 => exact hno _ _ _ h2 (scope_scopeAt.2 ⟨_, h3⟩) _ h4

/-- The order of the hash maps does not matter for acceptance. -/
theorem C32_order_irrelevant (o₁ o₂ : Order) (h₁ : IsOrder o₁) (h₂ : IsOrder o₂) (values : List (String × Ast.Schema))
    (hv : Validated values) : resolveSchemas o₁ values = .ok ↔ resolveSchemas o₂ values = .ok := by
  rw [C32_resolve_exact o₁ h₁ values hv, C32_resolve_exact o₂ h₂ values hv]

/-- C33 (partial: imports of modules and imports inside modules do not help, see below). If all top-level imports exist
and every mentioned type is a type parameter, declared in reach or imported by name, resolution succeeds. -/
theorem C33_complete_partial (order : Order) (ho : IsOrder order) (values : List (String × Ast.Schema))
    (hv : Validated values) (hi : ∀ v ∈ values, ImportsOk values v.2) (ht : ∀ v ∈ values, TypesResolve values v.2) :
    resolveSchemas order values = .ok :=
  (C32_resolve_exact order ho values hv).2 fun v hvm => ⟨hi v hvm, ht v hvm⟩

/-! ### Examples

```
// a                                     // b
use b::geo::Point;                       mod geo { struct Point<T>(T); mod deep { enum E { X } } }
struct S<T> { p: Point<T>, q: m::Q }
mod m { struct Q(vec<Point<u8>>); }
```
-/

/-- Schema `a` above. -/
def schemaA : Ast.Schema := ⟨[], [
  .import ⟨["b", "geo"], some "Point"⟩,
  .struct { name := "S", generics := ["T"],
            fields := .named [{ name := "p", ty := .external [] "Point" [.external [] "T" [] false] false, id := none },
              { name := "q", ty := .external ["m"] "Q" [] false, id := none }] },
  .module [] "m" [.struct { name := "Q", generics := [],
                            fields := .unnamed [⟨.vec (.external [] "Point" [.prim .u8] false), none⟩] }]]⟩

/-- Schema `b` above. -/
def schemaB : Ast.Schema := ⟨[], [
  .module [] "geo" [
    .struct { name := "Point", generics := ["T"], fields := .unnamed [⟨.external [] "T" [] false, none⟩] },
    .module [] "deep" [.enum { name := "E", generics := [], variants := [{ name := "X", fields := .unit, id := none }] }]]]⟩

/-- Iteration in insertion order. -/
theorem isOrder_id : IsOrder id := fun _ => .refl _

/-- Both examples are valid. -/
theorem validated_example : Validated [("a", schemaA), ("b", schemaB)] :=
  ⟨by decide, fun v hv => by
    rcases List.mem_cons.1 hv with rfl | hv
    · exact ⟨true, by decide +kernel⟩
    · rcases List.mem_cons.1 hv with rfl | hv
      · exact ⟨true, by decide +kernel⟩
      · cases hv⟩

theorem resolve_example : resolveSchemas id [("a", schemaA), ("b", schemaB)] = .ok := by decide +kernel

/-- `Point<T>` in `a` is the one of `b`. -/
example : ∃ d, Resolves [("a", schemaA), ("b", schemaB)] schemaA schemaA.definitions d [] "Point"
    [.external [] "T" [] false] :=
  ⟨_, C32_sound id isOrder_id _ validated_example resolve_example "a" schemaA (by simp) _ _ .root
    (List.mem_cons_of_mem _ (List.mem_cons_self ..)) _ _ _
    ⟨_, _, false, .struct _, .named _ (List.mem_cons_self ..), .here⟩⟩

/-- A missing argument is found in the inner module. -/
example : resolveSchemas id [("a", ⟨[], [.module [] "m" [
    .struct { name := "Q", generics := [], fields := .unnamed [⟨.external [] "R" [] false, none⟩] }]]⟩)] =
      .err (.loc (.missingDefinition "R" ["a", "m"])) := by decide +kernel

/-! ### Where the full C33 fails -/

/-- Schema using a type through an imported module: `use b::geo; struct S(geo::Point<u8>)`. -/
def schemaPath : Ast.Schema := ⟨[], [.import ⟨["b", "geo"], none⟩,
  .struct { name := "S", generics := [], fields := .unnamed [⟨.external ["geo"] "Point" [.prim .u8] false, none⟩] }]⟩

/-- Refutation: the module is imported, contains the type, and the reference is rejected nevertheless (with an error that
claims that the module `geo` is missing). -/
theorem C33_fails_for_module_imports :
    Validated [("a", schemaPath), ("b", schemaB)] ∧ ImportsOk [("a", schemaPath), ("b", schemaB)] schemaPath ∧
    (∃ out, ScopeAt schemaB.definitions ["geo"] out ∧ Declares out "Point" 1) ∧
    resolveSchemas id [("a", schemaPath), ("b", schemaB)] = .err (.loc (.missingModule "geo" ["a"])) := by
  refine ⟨⟨by decide, fun v hv => ?_⟩, ?_, ?_, by decide +kernel⟩
  · rcases List.mem_cons.1 hv with rfl | hv
    · exact ⟨true, by decide +kernel⟩
    · rcases List.mem_cons.1 hv with rfl | hv
      · exact ⟨true, by decide +kernel⟩
      · cases hv
  · intro i hi
    rcases List.mem_cons.1 hi with hi | hi
    · cases hi
      exact .module (s := schemaB) (by simp) (.enter (List.mem_cons_self ..) (.here _))
    · rcases List.mem_cons.1 hi with hi | hi <;> cases hi
  · exact ⟨_, .enter (List.mem_cons_self ..) (.here _), .struct _ (List.mem_cons_self ..) rfl rfl⟩

/-- More generally: no reference with a path ever resolves through an import. -/
theorem C33_paths_never_remote (order : Order) (ho : IsOrder order) (values : List (String × Ast.Schema))
    (hv : Validated values) (name : String) (s : Ast.Schema) (hs : (name, s) ∈ values) (scope : List Definition)
    (d : Definition) (hscope : Scope s scope) (hd : d ∈ scope) (p : String) (path : List String) (ty : String)
    (args : List DataType) (hm : Mentioned d (p :: path) ty args)
    (hl : ¬ ∃ out, ScopeAt scope (p :: path) out ∧ Declares out ty args.length) : resolveSchemas order values ≠ .ok := by
  intro h
  cases C32_sound order ho values hv h name s hs scope d hscope hd _ ty args hm with
  | loc h1 h2 => exact hl ⟨_, h1, h2⟩

/-- Schema with the import inside a module: `mod m { use b::geo::Point; struct S(Point<u8>) }`. -/
def schemaInner : Ast.Schema := ⟨[], [.module [] "m" [.import ⟨["b", "geo"], some "Point"⟩,
  .struct { name := "S", generics := [], fields := .unnamed [⟨.external [] "Point" [.prim .u8] false, none⟩] }]]⟩

/-- Refutation: an import inside a module is not used … -/
theorem C33_fails_for_inner_imports :
    resolveSchemas id [("a", schemaInner), ("b", schemaB)] = .err (.loc (.missingDefinition "Point" ["a", "m"])) := by
  decide +kernel

/-- … and not checked either: `mod m { use nowhere::Thing; }` is accepted. -/
theorem C33_inner_imports_unchecked :
    resolveSchemas id [("a", ⟨[], [.module [] "m" [.import ⟨["nowhere"], some "Thing"⟩]]⟩)] = .ok := by
  decide +kernel

end Mabo.Props
