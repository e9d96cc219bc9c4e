import Verif.Spec.Fragment
/-! A concrete schema and values used to show that the hypotheses of the theorems are met. -/
namespace Mabo.Demo
open Mabo.Buf Mabo.Schema Mabo.Codegen Mabo.Spec

/-- Schema given by a list of definitions. -/
def envOf (l : List (List String × Def)) : Env := fun n => (l.find? fun e => e.1 == n).map (·.2)

theorem envOf_mem {l : List (List String × Def)} {n : List String} {d : Def} (h : envOf l n = some d) :
    ∃ e ∈ l, e.1 = n ∧ e.2 = d := by
  simp only [envOf, Option.map_eq_some_iff] at h
  obtain ⟨e, he, rfl⟩ := h
  exact ⟨e, List.mem_of_find?_eq_some he, by simpa using List.find?_some he, rfl⟩

theorem envOf_ok {l : List (List String × Def)} (h : ∀ e ∈ l, DefOk e.2) : EnvOk (envOf l) := by
  intro n d hd
  obtain ⟨e, he, -, rfl⟩ := envOf_mem hd
  exact h e he

/-- `struct Address { street: string @1, no: option<u16> @2 }` -/
def address : Fields := ⟨.named, [⟨"street", .prim .string, 1⟩, ⟨"no", .option (.prim .u16), 2⟩]⟩

/-- `struct Person { name: string @1, age: u16 @2, tags: vec<string> @3, nick: option<string> @4,
home: Address @5, pos: (f32, f32) @9, scores: hash_map<string, u32> @7, pair: Pair<u8, Address> @8 }` -/
def person : Fields := ⟨.named, [⟨"name", .prim .string, 1⟩, ⟨"age", .prim .u16, 2⟩,
  ⟨"tags", .vec (.prim .string), 3⟩, ⟨"nick", .option (.prim .string), 4⟩, ⟨"home", .ext ["Address"] [], 5⟩,
  ⟨"pos", .tuple [.prim .f32, .prim .f32], 9⟩, ⟨"scores", .hashMap (.prim .string) (.prim .u32), 7⟩,
  ⟨"pair", .ext ["Pair"] [.prim .u8, .ext ["Address"] []], 8⟩]⟩

/-- `enum Shape { Nothing @1, Circle(u32 @1) @2, Rect { w: u32 @1, h: u32 @2 } @300 }` -/
def shape : List Variant := [⟨"Nothing", ⟨.unit, []⟩, 1⟩, ⟨"Circle", ⟨.unnamed, [⟨"n0", .prim .u32, 1⟩]⟩, 2⟩,
  ⟨"Rect", ⟨.named, [⟨"w", .prim .u32, 1⟩, ⟨"h", .prim .u32, 2⟩]⟩, 300⟩]

/-- Also `struct Pair<A, B> { a: A @1, b: B @2 }`, `struct Node { value: u32 @1, kids: vec<Node> @2 }`
(recursive) and the unit struct `struct Empty`. -/
def defs : List (List String × Def) := [
  (["Address"], .struct address),
  (["Person"], .struct person),
  (["Shape"], .enum shape),
  (["Pair"], .struct ⟨.named, [⟨"a", .param 0, 1⟩, ⟨"b", .param 1, 2⟩]⟩),
  (["Node"], .struct ⟨.named, [⟨"value", .prim .u32, 1⟩, ⟨"kids", .vec (.ext ["Node"] []), 2⟩]⟩),
  (["Empty"], .struct ⟨.unit, []⟩)]

def env : Env := envOf defs

theorem env_ok : EnvOk env := envOf_ok (by decide +kernel)

/-- An address. -/
def addressV : Val := .struct [.str "Main", .some (.num 500)]

/-- A person. -/
def personV : Val := .struct [.str "Zoë", .num 300, .list [.str "a", .str ""], .none, addressV,
  .list [.num 1, .num 2], .list [.pair (.str "x") (.num 7)], .struct [.num 3, addressV]]

/-- A small tree. -/
def nodeV : Val := .struct [.num 1, .list [.struct [.num 2, .list []], .struct [.num 3, .list [.struct [.num 4, .list []]]]]]

example : wt env (.ext ["Person"] []) personV = true := by decide +kernel
example : wt env (.ext ["Node"] []) nodeV = true := by decide +kernel

/-- The named types without collections and tuple fields. -/
def plainNames : List String → Bool := fun n => n == ["Address"] || n == ["Shape"] || n == ["Pair"]
/-- The named types with simple collections. -/
def shallowNames : List String → Bool := fun n => n == ["Address"] || n == ["Shape"] || n == ["Pair"] || n == ["Person"]

theorem plain : PlainEnv env plainNames := by
  intro n d hS hd
  obtain ⟨e, he, rfl, rfl⟩ := envOf_mem hd
  have key : ∀ e ∈ defs, plainNames e.1 = true → ∀ fs ∈ Def.fieldLists e.2, ∀ f ∈ fs.fields,
      plainTy plainNames f.ty = true ∧ isTuple (fieldTy f.ty) = false := by decide +kernel
  exact key e he hS

theorem shallow : ShallowEnv env plainNames shallowNames := by
  intro n d hS hd
  obtain ⟨e, he, rfl, rfl⟩ := envOf_mem hd
  have key : ∀ e ∈ defs, shallowNames e.1 = true → ∀ fs ∈ Def.fieldLists e.2, ∀ f ∈ fs.fields,
      shallowTy env plainNames shallowNames f.ty = true := by decide +kernel
  exact key e he hS

end Mabo.Demo
