import Verif.Rust.ClashEmitted
import Verif.Props.Layout
/-!
C83: the names in the modules of the generated crate (`Spec/Clash.lean`), and everything that Rust demands of a generated crate
taken together.

Vocabulary: `Emitted files o m items` — `items` are written as the module at the absolute path `m` (`Rust/ClashEmitted.lean`); `crateOf files` — which paths of
the crate are types or modules, and which are values (`Rust/Clash.lean`).
-/
namespace Mabo.Props
open Mabo.Spec Mabo.Build Mabo.Layout Mabo.Clash
open Mabo.Rust (Rt BytesType)
open Mabo.Parse (Text Std)

/-- The names that are taken in every module. -/
def traitNames : List String := ["Decode", "Encode", "Size"]

/-- The names of types in a module, except for the imported traits. -/
def ownTypes (files : Files) (m : List String) (items : List Rust.Item) : List String :=
  (items.drop 1).flatMap (typeNames (crateOf files) m)

theorem accepted_items {order : Resolve.Order} (ho : Resolve.IsOrder order) {std : Std} {valid : Simplify.Schema → Bool}
    {checked : Bool} {inputs : List (String × Text)} {files : Files} {o : BytesType} (hn : (inputs.map (·.1)).Nodup)
    (h : compile order std valid checked inputs = ⟨.ok (), files⟩) {m : List String} {items : List Rust.Item}
    (hi : Emitted files o m items) : moduleItems files o m = some items := by
  obtain ⟨hgen, hv, _⟩ := accepted_parts ho hn h
  exact emitted_items hgen (C48_written_partial order std valid checked inputs files hn h).1
    (fun v hvm => uniqueNames_of_names (hv v hvm).names) hi

section
variable (order : Resolve.Order) (ho : Resolve.IsOrder order) (std : Std) (valid : Simplify.Schema → Bool) (checked : Bool)
  (inputs : List (String × Text)) (files : Files) (o : BytesType) (hn : (inputs.map (·.1)).Nodup)
  (h : compile order std valid checked inputs = ⟨.ok (), files⟩)
include ho hn h

/-- C83, types: exactly the names of the three traits make trouble. In each module of an accepted project the names of types,
modules and imports are declared once, if and only if none of them is `Decode`, `Encode` or `Size`. -/
theorem C83_types_exact (m : List String) (items : List Rust.Item) (hi : Emitted files o m items) :
    (items.flatMap (typeNames (crateOf files) m)).Nodup ↔ ∀ n ∈ ownTypes files m items, n ∉ traitNames := by
  obtain ⟨hgen, hv, _⟩ := accepted_parts ho hn h
  replace hi := accepted_items ho hn h hi
  simp only [moduleItems, Option.bind_eq_some_iff, Option.map_eq_some_iff] at hi
  obtain ⟨es, hs, is, his, rfl⟩ := hi
  obtain ⟨stem, s, mods, scope, rfl, h1, h2, h3⟩ := scopeOf_back hgen hs
  have hu : (scope.flatMap introduced).Nodup := ((uniqueNames_of_names (hv _ h1).names).at h2).here
  have hown := hu.sublist (defs_sub o (def_types (crateOf files) (stem :: mods) o) h3 his)
  rw [List.flatMap_cons, List.nodup_append]
  simp only [ownTypes, List.drop_one, List.tail_cons, typeNames]
  constructor
  · exact fun ⟨_, _, hd⟩ n hm ht => hd n ht n hm rfl
  · refine fun hd => ⟨by decide, hown, fun a ha b hb e => hd b hb (e ▸ ha)⟩

/-- C83, values: constructors and constants are always declared once. -/
theorem C83_values (m : List String) (items : List Rust.Item) (hi : Emitted files o m items) :
    (items.flatMap (valueNames (crateOf files) m)).Nodup := by
  obtain ⟨hgen, hv, _⟩ := accepted_parts ho hn h
  replace hi := accepted_items ho hn h hi
  simp only [moduleItems, Option.bind_eq_some_iff, Option.map_eq_some_iff] at hi
  obtain ⟨es, hs, is, his, rfl⟩ := hi
  obtain ⟨stem, s, mods, scope, rfl, h1, h2, h3⟩ := scopeOf_back hgen hs
  have hu : (scope.flatMap introduced).Nodup := ((uniqueNames_of_names (hv _ h1).names).at h2).here
  rw [List.flatMap_cons]
  exact hu.sublist (defs_sub o (def_values (crateOf files) (stem :: mods) o) h3 his)

/-- C83, imports (partial: at the top level of files; refuted for inner modules). Every import leads to a type or module. -/
theorem C83_imports_partial (stem : String) (items : List Rust.Item) (hi : Emitted files o [stem] items)
    (path : List String) (hp : .import path ∈ items) : (crateOf files).types (target [stem] path) = true := by
  obtain ⟨hgen, hv, hr⟩ := accepted_parts ho hn h
  have hu : ∀ v ∈ schemasOf std inputs, UniqueNames v.2.definitions := fun v hvm => uniqueNames_of_names (hv v hvm).names
  replace hi := accepted_items ho hn h hi
  simp only [moduleItems, Option.bind_eq_some_iff, Option.map_eq_some_iff] at hi
  obtain ⟨es, hs, is, his, rfl⟩ := hi
  obtain ⟨stem', s, mods, scope, e, h1, h2, h3⟩ := scopeOf_back hgen hs
  injection e with e e'
  subst e
  subst e'
  cases h2
  have hp := (List.mem_cons.1 hp).resolve_left (by nofun)
  obtain ⟨i, hi, rfl⟩ := import_back o h3 his hp
  have hok := (hr _ h1).1 i hi
  simp only [target, List.dropLast_singleton, List.nil_append, crateOf, Bool.or_eq_true]
  cases hok with
  | type hs' hp' hd' =>
    obtain ⟨it, hit, _⟩ := declared_item hgen hu hs' hp' hd'
    refine .inl (.inl ?_)
    simp only [Option.toList_some]
    rw [show ∀ (a : String) (l : List String) (n : String), a :: l ++ [n] = a :: l ++ [n] from fun _ _ _ => rfl, hit]
    rfl
  | module hs' hp' =>
    obtain ⟨es', hes, _⟩ := scopeOf_fwd hgen hs' (hu _ hs') hp'
    refine .inr ?_
    simp only [Option.toList_none, List.append_nil]
    rw [hes]
    rfl

/-- C83 (partial: for modules without types called `Decode`, `Encode` and `Size`, and without imports in inner modules; the full
claim, for all accepted projects, is refuted below). Rust accepts the items of every module. -/
theorem C83_modules_partial (m : List String) (items : List Rust.Item) (hi : Emitted files o m items)
    (hnames : ∀ n ∈ ownTypes files m items, n ∉ traitNames) (himp : m.length = 1 ∨ ∀ path, .import path ∉ items) :
    Fine (crateOf files) m items := by
  refine ⟨(C83_types_exact order ho std valid checked inputs files o hn h m items hi).2 hnames,
    C83_values order ho std valid checked inputs files o hn h m items hi, fun path hp => .inl ?_⟩
  rcases himp with hm | hm
  · match m, hm with
    | [stem], _ => exact C83_imports_partial order ho std valid checked inputs files o hn h stem items hi path hp
  · exact absurd hp (hm path)

end

/-! ### The whole crate -/

/-- Everything that Rust demands of a generated crate, as far as it is modelled. -/
structure RustAccepts (files : Files) (o : BytesType) : Prop where
  /-- The bodies of the functions compile (C67). -/
  functions : Compiles files o
  /-- The definitions of types are in order (C82). -/
  definitions : ∀ abs, (itemAt files abs).isSome = true →
    ∃ k fs, defsOf files o abs = some (k, fs) ∧ Accepted (defsOf files o) abs k fs
  /-- The names in the modules are in order. -/
  modules : ∀ m items, Emitted files o m items → Fine (crateOf files) m items

/-- What a schema has to avoid, besides the conditions of C67. -/
structure Avoids (files : Files) (o : BytesType) : Prop where
  recursion : NoCycle (defsOf files o)
  traits : ∀ m items, Emitted files o m items → ∀ n ∈ ownTypes files m items, n ∉ traitNames
  innerImports : ∀ m items, Emitted files o m items → m.length = 1 ∨ ∀ path, .import path ∉ items

/-- C83 (partial, see there and C67, C82). Rust accepts the crate of every accepted project with the names and types of
C67, without recursion, types called like the traits, and imports in inner modules. -/
theorem C83_crate_partial (order : Resolve.Order) (ho : Resolve.IsOrder order) (std : Std) (valid : Simplify.Schema → Bool)
    (checked : Bool) (inputs : List (String × Text)) (files : Files) (o : BytesType) (hn : (inputs.map (·.1)).Nodup)
    (h : compile order std valid checked inputs = ⟨.ok (), files⟩) (hg : Rust.CrateGood files o) (ha : Avoids files o) :
    RustAccepts files o where
  functions := compiles_iff.2 hg
  definitions abs hs := C82_definitions_partial order ho std valid checked inputs files o hn h (compiles_iff.2 hg) ha.recursion abs hs
  modules m items hi := C83_modules_partial order ho std valid checked inputs files o hn h m items hi (ha.traits m items hi)
    (ha.innerImports m items hi)

/-! ### Examples -/

/-- A check of all modules. -/
def everyModule (p : List String → List Rust.Item → Bool) (files : Files) (o : BytesType) : Bool :=
  (modulePaths files).all fun m =>
    match moduleItems files o m with
    | some items => p m items
    | none => true

theorem everyModule_mem {p : List String → List Rust.Item → Bool} {files : Files} {o : BytesType}
    (h : everyModule p files o = true) {m : List String} {items : List Rust.Item} (hi : moduleItems files o m = some items) :
    p m items = true := by
  have hm : m ∈ modulePaths files := by
    have := hi
    simp only [moduleItems, Option.bind_eq_some_iff] at this
    obtain ⟨es, hs, _⟩ := this
    exact scopeOf_paths hs
  have := List.all_eq_true.1 h m hm
  simpa only [hi] using this

/-- Is it an import? -/
def isImport : Rust.Item → Bool
  | .import _ => true
  | _ => false

theorem avoids_of {files : Files} {o : BytesType} (h0 : ∀ {m items}, Emitted files o m items → moduleItems files o m = some items)
    (rank : List String → Nat) (h1 : ranked names files o rank = true)
    (h2 : everyModule (fun m items => (ownTypes files m items).all fun n => !traitNames.contains n) files o = true)
    (h3 : everyModule (fun m items => m.length == 1 || items.all fun i => !isImport i) files o = true) : Avoids files o where
  recursion := noCycle_of rank h1
  traits m items hi n hn := by
    have := List.all_eq_true.1 (everyModule_mem h2 (h0 hi)) n hn
    simpa using this
  innerImports m items hi := by
    have := everyModule_mem h3 (h0 hi)
    rw [Bool.or_eq_true, List.all_eq_true, beq_iff_eq] at this
    exact this.imp id fun h path hp => by simpa [isImport] using h _ hp

/-- The hypotheses of `C83_crate_partial` are met by the project of C47, with an import between files and an inner module: Rust
accepts its crate. -/
theorem C83_example (o : BytesType) : RustAccepts buildFiles o :=
  C83_crate_partial id isOrder_id C37_std (fun _ => true) true buildInputs buildFiles o (by decide) buildFiles_eq
    (compiles_iff.1 (buildFiles_good o))
    (avoids_of (accepted_items isOrder_id (by decide) buildFiles_eq) (fun p => if p = ["a", "S"] then 2 else if p.length = 2 then 1 else 0)
      (by cases o <;> decide +kernel) (by cases o <;> decide +kernel) (by cases o <;> decide +kernel))

-- the module of the file `a`, and the import in it
example : (emittedAt buildFiles .vecU8 ["a"]).map (fun items =>
      (items.flatMap (typeNames (crateOf buildFiles) ["a"]), items.flatMap (valueNames (crateOf buildFiles) ["a"]))) =
    some (["Decode", "Encode", "Size", "Point", "S", "m"], ["Point"]) := by decide +kernel

/-! ### Where C83 fails -/

/-- Whether the names of the types in a module of the file `a` are declared once. -/
def once (text : String) (m : List String) : Option Bool :=
  (emittedAt (filesOf text) .vecU8 m).map fun items => decide (items.flatMap (typeNames (crateOf (filesOf text)) m)).Nodup

/-- Refutation of C83: types and aliases called `Size`, `Encode` and `Decode` are accepted, also in inner modules, and the
functions of types that use them would be fine; but each module imports traits of these names (E0255). -/
theorem C83_fails_for_trait_names :
    (outcome .vecU8 "struct Size(u8)\nstruct S(Size)" = some (true, true, true) ∧
      once "struct Size(u8)\nstruct S(Size)" ["a"] = some false) ∧
    (outcome .vecU8 "enum Encode { A @1 }\nstruct S(Encode)" = some (true, true, true) ∧
      once "enum Encode { A @1 }\nstruct S(Encode)" ["a"] = some false) ∧
    (outcome .vecU8 "type Decode = u8;\nstruct S(u8)" = some (true, true, true) ∧
      once "type Decode = u8;\nstruct S(u8)" ["a"] = some false) ∧
    (outcome .vecU8 "mod m { struct Size(u8) }\nstruct S(m::Size)" = some (true, true, true) ∧
      once "mod m { struct Size(u8) }\nstruct S(m::Size)" ["a"] = some true ∧
      once "mod m { struct Size(u8) }\nstruct S(m::Size)" ["a", "m"] = some false) := by
  refine ⟨⟨?_, ?_⟩, ⟨?_, ?_⟩, ⟨?_, ?_⟩, ⟨?_, ?_, ?_⟩⟩ <;> decide +kernel

/-- The imports of a module that lead to nothing. -/
def lost (text : String) (m : List String) : Option (List (List String)) :=
  (emittedAt (filesOf text) .vecU8 m).map fun items => items.filterMap fun i =>
    match i with
    | .import path => if (crateOf (filesOf text)).types (target m path) || (crateOf (filesOf text)).values (target m path) then none
        else some path
    | _ => none

/-- Refutation of C83: imports in inner modules are not looked up by the resolver, so they can lead to nothing; and they are
written for the module around instead of the crate, so that one of another file leads to nothing as well. -/
theorem C83_fails_for_inner_imports :
    accepts "mod m { use nowhere::Thing; struct T(u8) }" = true ∧
    lost "mod m { use nowhere::Thing; struct T(u8) }" ["a", "m"] = some [["nowhere", "Thing"]] ∧
    accepts "struct S(u8)\nmod m { use a::S; }" = true ∧
    lost "struct S(u8)\nmod m { use a::S; }" ["a", "m"] = some [["a", "S"]] := by
  refine ⟨?_, ?_, ?_, ?_⟩ <;> decide +kernel

end Mabo.Props
