import Verif.Rust.Run
import Verif.Spec.Clash
import Verif.Build.Meaning
/-! The modules of the generated crate and the names they declare. -/
namespace Mabo.Clash
open Mabo.Build Mabo.Rust Mabo.Spec
open scoped List

/-- Is there an alias at the path? -/
def aliasAt (files : Files) (abs : List String) : Bool :=
  match scopeOf files abs.dropLast, abs.getLast? with
  | some ds, some n => ds.any fun d =>
    match d with
    | .typeAlias a => a.name = n
    | _ => false
  | _, _ => false

/-- The generated crate: structs, enums, aliases and modules (definition.rs:59-175), tuple structs, unit structs and
constants. -/
def crateOf (files : Files) : Crate where
  types abs := (itemAt files abs).isSome || aliasAt files abs || (scopeOf files abs).isSome
  values abs := valueAt files abs

/-- The emitted items of the module at `m` (`compile_schema` and `compile_module`, definition.rs:13-22, 59-81), if the generator
can write them. -/
def moduleItems (files : Files) (o : BytesType) (m : List String) : Option (List Rust.Item) :=
  (scopeOf files m).bind fun ds => (compileDefinitions o ds).map (.traits :: ·)

/-! ### Names of the items -/

theorem lastName_eq (l : List String) : lastName l = l.drop (l.length - 1) := by
  rcases List.eq_nil_or_concat l with rfl | ⟨l, a, rfl⟩
  · rfl
  · simp [lastName]

theorem introduced_import {segs : List String} {e : Option String} :
    lastName (segs ++ e.toList) = introduced (.import ⟨segs, e⟩) := by
  cases e with
  | none => simp [introduced, lastName_eq]
  | some e => simp [introduced, lastName]

theorem if_sub {c : Bool} {l : List String} : (if c = true then l else []) <+ l := by
  split
  · exact List.Sublist.refl _
  · exact List.nil_sublist _

theorem def_types (c : Crate) (m : List String) (o : BytesType) {d : Ast.Definition} {e : Simplify.Definition}
    {items : List Rust.Item} (hs : SameDef d e) (h : compileDefinition o e = some items) :
    items.flatMap (typeNames c m) <+ introduced d := by
  cases hs with
  | module hs =>
    simp only [compileDefinition, bind, Option.bind, pure] at h
    split at h
    · cases h
    · cases h
      simp [typeNames, introduced]
  | struct hs =>
    simp only [compileDefinition, bind, pure, Option.bind_eq_some_iff, Option.some.injEq] at h
    obtain ⟨_, _, _, _, _, _, _, _, rfl⟩ := h
    simp [typeNames, introduced]
  | enum _ _ _ _ =>
    simp only [compileDefinition, bind, pure, Option.bind_eq_some_iff, Option.some.injEq] at h
    obtain ⟨_, _, _, _, _, _, _, _, rfl⟩ := h
    simp [typeNames, introduced]
  | typeAlias _ =>
    simp only [compileDefinition, bind, pure, Option.bind_eq_some_iff, Option.some.injEq] at h
    obtain ⟨_, _, rfl⟩ := h
    simp [typeNames, introduced]
  | const _ =>
    simp only [compileDefinition, bind, pure, Option.bind_eq_some_iff, Option.some.injEq] at h
    obtain ⟨_, _, rfl⟩ := h
    simp [typeNames]
  | «import» i =>
    simp only [compileDefinition, Option.some.injEq] at h
    subst h
    simp only [List.flatMap_cons, List.flatMap_nil, List.append_nil, typeNames, introduced_import]
    exact if_sub

theorem def_values (c : Crate) (m : List String) (o : BytesType) {d : Ast.Definition} {e : Simplify.Definition}
    {items : List Rust.Item} (hs : SameDef d e) (h : compileDefinition o e = some items) :
    items.flatMap (valueNames c m) <+ introduced d := by
  cases hs with
  | module hs =>
    simp only [compileDefinition, bind, Option.bind, pure] at h
    split at h
    · cases h
    · cases h
      simp [valueNames]
  | struct hs =>
    simp only [compileDefinition, bind, pure, Option.bind_eq_some_iff, Option.some.injEq] at h
    obtain ⟨_, _, _, _, _, _, _, _, rfl⟩ := h
    simp only [List.flatMap_cons, List.flatMap_nil, List.append_nil, valueNames, introduced]
    split
    · exact List.nil_sublist _
    · exact List.Sublist.refl _
  | enum _ _ _ _ =>
    simp only [compileDefinition, bind, pure, Option.bind_eq_some_iff, Option.some.injEq] at h
    obtain ⟨_, _, _, _, _, _, _, _, rfl⟩ := h
    simp [valueNames]
  | typeAlias _ =>
    simp only [compileDefinition, bind, pure, Option.bind_eq_some_iff, Option.some.injEq] at h
    obtain ⟨_, _, rfl⟩ := h
    simp [valueNames]
  | const _ =>
    simp only [compileDefinition, bind, pure, Option.bind_eq_some_iff, Option.some.injEq] at h
    obtain ⟨_, _, rfl⟩ := h
    simp [valueNames, introduced]
  | «import» i =>
    simp only [compileDefinition, Option.some.injEq] at h
    subst h
    simp only [List.flatMap_cons, List.flatMap_nil, List.append_nil, valueNames, introduced_import]
    exact if_sub

theorem defs_sub {f : Rust.Item → List String} (o : BytesType)
    (hf : ∀ {d : Ast.Definition} {e : Simplify.Definition} {items : List Rust.Item}, SameDef d e →
      compileDefinition o e = some items → items.flatMap f <+ introduced d) :
    ∀ {ds : List Ast.Definition} {es : List Simplify.Definition} {items : List Rust.Item}, SameDefs ds es →
      compileDefinitions o es = some items → items.flatMap f <+ ds.flatMap introduced
  | _, _, _, .nil, h => by
    simp only [compileDefinitions, Option.some.injEq] at h
    subst h
    exact List.Sublist.refl _
  | _, _, _, .cons h1 h2, h => by
    simp only [compileDefinitions, bind, pure, Option.bind_eq_some_iff, Option.some.injEq] at h
    obtain ⟨a, ha, b, hb, rfl⟩ := h
    rw [List.flatMap_append, List.flatMap_cons]
    exact (hf h1 ha).append (defs_sub o hf h2 hb)

/-- Emitted imports are those of the schema. -/
theorem import_back (o : BytesType) {path : List String} : ∀ {ds : List Ast.Definition} {es : List Simplify.Definition}
    {items : List Rust.Item}, SameDefs ds es → compileDefinitions o es = some items → .import path ∈ items →
    ∃ i, Ast.Definition.import i ∈ ds ∧ path = i.segments ++ i.element.toList
  | _, _, _, .nil, h, hm => by
    simp only [compileDefinitions, Option.some.injEq] at h
    subst h
    exact nomatch hm
  | _, _, _, .cons h1 h2, h, hm => by
    simp only [compileDefinitions, bind, pure, Option.bind_eq_some_iff, Option.some.injEq] at h
    obtain ⟨a, ha, b, hb, rfl⟩ := h
    rcases List.mem_append.1 hm with hm | hm
    · cases h1 with
      | «import» i =>
        simp only [compileDefinition, Option.some.injEq] at ha
        subst ha
        rw [List.mem_singleton] at hm
        injection hm with hm
        exact ⟨i, List.mem_cons_self, hm⟩
      | _ =>
        simp only [compileDefinition, bind, pure, Option.bind_eq_some_iff, Option.some.injEq] at ha
        first
          | (obtain ⟨_, _, rfl⟩ := ha; simp at hm)
          | (obtain ⟨_, _, _, _, _, _, _, _, rfl⟩ := ha; simp at hm)
    · obtain ⟨i, hi, hp⟩ := import_back o h2 hb hm
      exact ⟨i, List.mem_cons_of_mem _ hi, hp⟩

/-! ### All modules -/

mutual
/-- The paths of the modules in a definition. -/
def modulesIn : Simplify.Definition → List (List String)
  | .module _ n ds => (modulesOf ds).map (n :: ·)
  | _ => []
/-- In all of them, with the outer one. -/
def modulesOf : List Simplify.Definition → List (List String)
  | [] => [[]]
  | d :: ds => modulesIn d ++ modulesOf ds
end

theorem nil_modulesOf : ∀ ds : List Simplify.Definition, [] ∈ modulesOf ds
  | [] => List.mem_singleton.2 rfl
  | d :: ds => by
    rw [modulesOf]
    exact List.mem_append_right _ (nil_modulesOf ds)

theorem childModule_modules {m : String} {p : List String} : ∀ {ds ds' : List Simplify.Definition},
    childModule ds m = some ds' → p ∈ modulesOf ds' → m :: p ∈ modulesOf ds
  | d :: ds, ds', h, hp => by
    rw [modulesOf, List.mem_append]
    cases d with
    | module c n es =>
      rw [childModule] at h
      split at h
      · next hn =>
        left
        injection h with h
        subst h hn
        exact List.mem_map.2 ⟨p, hp, rfl⟩
      · exact .inr (childModule_modules h hp)
    | _ => exact .inr (childModule_modules (by simpa [childModule] using h) hp)

theorem enter_modules : ∀ {ms : List String} {ds out : List Simplify.Definition}, enter ds ms = some out → ms ∈ modulesOf ds
  | [], ds, _, _ => nil_modulesOf ds
  | m :: ms, ds, out, h => by
    rw [enter] at h
    cases hc : childModule ds m with
    | none => simp [hc] at h
    | some ds' =>
      simp only [hc] at h
      exact childModule_modules hc (enter_modules h)

/-- The paths of the modules of a crate. -/
def modulePaths (files : Files) : List (List String) := files.flatMap fun f => (modulesOf f.2.definitions).map (f.1 :: ·)

theorem scopeOf_paths {files : Files} {m : List String} {es : List Simplify.Definition} (h : scopeOf files m = some es) :
    m ∈ modulePaths files := by
  cases m with
  | nil => simp [scopeOf] at h
  | cons stem mods =>
    rw [scopeOf] at h
    cases hf : files.find? (fun f => decide (f.1 = stem)) with
    | none => simp [hf] at h
    | some f =>
      simp only [hf] at h
      have h1 := List.find?_some hf
      simp only [decide_eq_true_eq] at h1
      rw [modulePaths, List.mem_flatMap]
      exact ⟨f, List.mem_of_find?_eq_some hf, List.mem_map.2 ⟨_, enter_modules h, by rw [h1]⟩⟩

end Mabo.Clash
