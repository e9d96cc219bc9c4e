import Verif.Rust.GoodCrate
/-!
A check of `CrateGood`: the types of a crate are finitely many.
-/
namespace Mabo.Rust
open Mabo.Simplify (Definition)
open Mabo.Build (Files)

mutual
/-- The paths of the types in a definition. -/
def typePaths : Definition → List (List String)
  | .module _ n ds => (typesPaths ds).map (n :: ·)
  | .struct s => [[s.name]]
  | .enum e => [[e.name]]
  | _ => []
/-- In all of them. -/
def typesPaths : List Definition → List (List String)
  | [] => []
  | d :: ds => typePaths d ++ typesPaths ds
end

theorem childModule_paths {m : String} {p : List String} : ∀ {ds ds' : List Definition}, Build.childModule ds m = some ds' →
    p ∈ typesPaths ds' → m :: p ∈ typesPaths ds
  | d :: ds, ds', h, hp => by
    rw [typesPaths, List.mem_append]
    cases d with
    | module c n es =>
      rw [Build.childModule] at h
      split at h
      · next hn =>
        left
        injection h with h
        subst h hn
        exact List.mem_map.2 ⟨p, hp, rfl⟩
      · exact .inr (childModule_paths h hp)
    | _ => exact .inr (childModule_paths (by simpa [Build.childModule] using h) hp)

theorem findItem_paths {n : String} {it : Build.Item} : ∀ {ds : List Definition}, Build.findItem ds n = some it →
    [n] ∈ typesPaths ds
  | d :: ds, h => by
    rw [typesPaths, List.mem_append]
    cases d with
    | struct s =>
      rw [Build.findItem] at h
      split at h
      · next hn => exact .inl (by rw [typePaths, ← hn]; exact List.mem_singleton.2 rfl)
      · exact .inr (findItem_paths h)
    | enum s =>
      rw [Build.findItem] at h
      split at h
      · next hn => exact .inl (by rw [typePaths, ← hn]; exact List.mem_singleton.2 rfl)
      · exact .inr (findItem_paths h)
    | _ => exact .inr (findItem_paths (by simpa [Build.findItem] using h))

theorem enter_paths {n : String} {it : Build.Item} : ∀ {ms : List String} {ds out : List Definition},
    Build.enter ds ms = some out → Build.findItem out n = some it → ms ++ [n] ∈ typesPaths ds
  | [], ds, out, h, hf => by
    injection h with h
    subst h
    exact findItem_paths hf
  | m :: ms, ds, out, h, hf => by
    rw [Build.enter] at h
    cases hc : Build.childModule ds m with
    | none => simp [hc] at h
    | some ds' =>
      simp only [hc] at h
      exact childModule_paths hc (enter_paths h hf)

/-- The paths of the types of a crate. -/
def cratePaths (files : Files) : List (List String) := files.flatMap fun f => (typesPaths f.2.definitions).map (f.1 :: ·)

theorem itemAt_paths {files : Files} {abs : List String} {it : Build.Item} (h : Build.itemAt files abs = some it) :
    abs ∈ cratePaths files := by
  simp only [Build.itemAt] at h
  cases hl : abs.getLast? with
  | none => simp [hl] at h
  | some n =>
    cases hs : Build.scopeOf files abs.dropLast with
    | none => simp [hs] at h
    | some scope =>
      simp only [hs, hl] at h
      have ha : abs = abs.dropLast ++ [n] := by
        have hne : abs ≠ [] := by rintro rfl; simp at hl
        rw [List.getLast?_eq_some_getLast hne, Option.some.injEq] at hl
        rw [← hl, List.dropLast_concat_getLast]
      cases hd : abs.dropLast with
      | nil => simp [hd, Build.scopeOf] at hs
      | cons stem mods =>
        rw [hd, Build.scopeOf] at hs
        cases hf : files.find? (fun f => decide (f.1 = stem)) with
        | none => simp [hf] at hs
        | some f =>
          simp only [hf] at hs
          have h1 := List.find?_some hf
          simp only [decide_eq_true_eq] at h1
          rw [ha, hd, cratePaths, List.mem_flatMap]
          exact ⟨f, List.mem_of_find?_eq_some hf, List.mem_map.2 ⟨_, enter_paths hs h, by rw [h1]; rfl⟩⟩

/-- `CrateGood` by trying all types. -/
def crateGood (files : Files) (o : BytesType) : Bool := (cratePaths files).all fun abs =>
  match Build.itemAt files abs with
  | some it => valuesGood (scopeAt files abs.dropLast it.generics) it && itemGood o (scopeAt files abs.dropLast it.generics) it
  | none => true

theorem crateGood_iff {files : Files} {o : BytesType} : crateGood files o = true ↔ CrateGood files o := by
  constructor
  · intro h abs it hit
    rw [crateGood, List.all_eq_true] at h
    have := h abs (itemAt_paths hit)
    simpa only [hit, Bool.and_eq_true] using this
  · intro h
    rw [crateGood, List.all_eq_true]
    intro abs _
    cases hit : Build.itemAt files abs with
    | none => rfl
    | some it => simpa only [Bool.and_eq_true] using h abs it hit

end Mabo.Rust
