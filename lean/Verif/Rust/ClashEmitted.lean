import Verif.Rust.Clash
import Verif.Props.Build
/-! The modules that are written, and the content of the crate by paths: the same. -/
namespace Mabo.Clash
open Mabo.Build Mabo.Rust Mabo.Spec

/-- The modules of the generated crate: each file is one (`compile_schema`, definition.rs:13-22, included in `mod stem { … }`), and
so are the modules written in them (`compile_module`, definition.rs:59-81). -/
inductive Emitted (files : Files) (o : BytesType) : List String → List Rust.Item → Prop where
  | file {stem : String} {s : Simplify.Schema} {items : List Rust.Item} : (stem, s) ∈ files → compileSchema o s = some items →
      Emitted files o [stem] items
  | inner {m : List String} {items body : List Rust.Item} {comment : List String} {name : String} : Emitted files o m items →
      .module comment name body ∈ items → Emitted files o (m ++ [name]) body

/-- The first module of a name among items. -/
def innerItems : List Rust.Item → String → Option (List Rust.Item)
  | [], _ => none
  | .module _ n body :: rest, m => if n = m then some body else innerItems rest m
  | _ :: rest, m => innerItems rest m

/-- The items of the module at a path, from the emitted files. -/
def emittedAt (files : Files) (o : BytesType) : List String → Option (List Rust.Item)
  | [] => none
  | stem :: mods => do
    let f ← files.find? (fun f => decide (f.1 = stem))
    mods.foldlM innerItems (← compileSchema o f.2)

theorem innerItems_mem {n : String} {body : List Rust.Item} : ∀ {items : List Rust.Item}, innerItems items n = some body →
    ∃ c, .module c n body ∈ items
  | [], h => by simp [innerItems] at h
  | i :: is, h => by
    have next : innerItems is n = some body → ∃ c, .module c n body ∈ i :: is := fun h => by
      obtain ⟨c, hc⟩ := innerItems_mem h
      exact ⟨c, List.mem_cons_of_mem _ hc⟩
    cases i with
    | module c n' b =>
      simp only [innerItems] at h
      by_cases hn : n' = n
      · rw [if_pos hn] at h
        cases h; subst hn
        exact ⟨c, List.mem_cons_self ..⟩
      · rw [if_neg hn] at h
        exact next h
    | _ => exact next (by simpa [innerItems] using h)

/-- What is found in the emitted files is emitted. -/
theorem emittedAt_emitted {files : Files} {o : BytesType} {m : List String} {items : List Rust.Item}
    (h : emittedAt files o m = some items) : Emitted files o m items := by
  cases m with
  | nil => cases h
  | cons stem mods =>
    simp only [emittedAt, bind, Option.bind_eq_some_iff] at h
    obtain ⟨⟨st, s⟩, hf, is, his, h⟩ := h
    have h1 := List.find?_some hf
    simp only [decide_eq_true_eq] at h1
    subst h1
    have h0 : Emitted files o [st] is := .file (List.mem_of_find?_eq_some hf) his
    clear his hf
    suffices ∀ (mods : List String) (p : List String) (is : List Rust.Item), Emitted files o p is →
        mods.foldlM innerItems is = some items → Emitted files o (p ++ mods) items from this mods [st] is h0 h
    intro mods
    induction mods with
    | nil =>
      intro p is hp he
      simp only [List.foldlM_nil, pure, Option.some.injEq] at he
      subst he
      simpa using hp
    | cons n ns ih =>
      intro p is hp he
      simp only [List.foldlM_cons, bind, Option.bind_eq_some_iff] at he
      obtain ⟨b, hb, he⟩ := he
      obtain ⟨c, hc⟩ := innerItems_mem hb
      have := ih (p ++ [n]) b (.inner hp hc) he
      simpa using this

theorem module_mem {c : List String} {n : String} {es' : List Simplify.Definition} : ∀ {ds : List Ast.Definition}
    {es : List Simplify.Definition}, SameDefs ds es → .module c n es' ∈ es → ∃ ds', Ast.Definition.module c n ds' ∈ ds
  | _, _, .nil, h => nomatch h
  | _, _, .cons hd hs, h => by
    rcases List.mem_cons.1 h with h | h
    · subst h
      cases hd with
      | module _ => exact ⟨_, List.mem_cons_self ..⟩
    · obtain ⟨ds', h'⟩ := module_mem hs h
      exact ⟨ds', List.mem_cons_of_mem _ h'⟩

theorem childModule_of_mem {c : List String} {n : String} {es' : List Simplify.Definition} : ∀ {ds : List Ast.Definition}
    {es : List Simplify.Definition}, SameDefs ds es → (ds.flatMap introduced).Nodup → .module c n es' ∈ es →
    childModule es n = some es'
  | _, _, .nil, _, h => nomatch h
  | d :: ds, e :: es, .cons hd hs, hu, h => by
    rcases List.mem_cons.1 h with h | h
    · subst h
      simp [childModule]
    · have ih := childModule_of_mem hs (nodup_tail hu) h
      obtain ⟨ds', hin⟩ := module_mem hs h
      cases hd with
      | module hi =>
        rename_i c' n' ds'' es''
        have : n' ≠ n := fun hn => nodup_head hu (n := n) (by simp [introduced, hn]) _ hin (by simp [introduced])
        simp [childModule, this, ih]
      | _ => simpa [childModule] using ih

/-- The modules among the items are those of the definitions. -/
theorem module_back (o : BytesType) {c : List String} {n : String} {body : List Rust.Item} :
    ∀ {es : List Simplify.Definition} {items : List Rust.Item}, compileDefinitions o es = some items →
    .module c n body ∈ items → ∃ es' rest, .module c n es' ∈ es ∧ compileDefinitions o es' = some rest ∧ body = .traits :: rest
  | [], items, h, hm => by
    simp only [compileDefinitions, Option.some.injEq] at h
    subst h
    exact nomatch hm
  | d :: ds, items, h, hm => by
    simp only [compileDefinitions, bind, pure, Option.bind_eq_some_iff, Option.some.injEq] at h
    obtain ⟨a, ha, b, hb, rfl⟩ := h
    rcases List.mem_append.1 hm with hm | hm
    · cases d with
      | module c' n' es' =>
        simp only [compileDefinition, bind, pure, Option.bind_eq_some_iff, Option.some.injEq] at ha
        obtain ⟨rest, hr, rfl⟩ := ha
        rw [List.mem_singleton] at hm
        injection hm with h1 h2 h3
        subst h1 h2 h3
        exact ⟨es', rest, List.mem_cons_self .., hr, rfl⟩
      | «import» s e =>
        simp only [compileDefinition, Option.some.injEq] at ha
        subst ha
        simp at hm
      | _ =>
        simp only [compileDefinition, bind, pure, Option.bind_eq_some_iff, Option.some.injEq] at ha
        first
          | (obtain ⟨_, _, rfl⟩ := ha; simp at hm)
          | (obtain ⟨_, _, _, _, _, _, _, _, rfl⟩ := ha; simp at hm)
    · obtain ⟨es', rest, h1, h2⟩ := module_back o hb hm
      exact ⟨es', rest, List.mem_cons_of_mem _ h1, h2⟩

theorem enter_snoc {n : String} : ∀ (p : List String) (ds : List Simplify.Definition),
    enter ds (p ++ [n]) = (enter ds p).bind fun ds' => childModule ds' n
  | [], ds => by
    simp only [List.nil_append, enter, Option.bind_some]
    cases childModule ds n <;> rfl
  | m :: p, ds => by
    simp only [List.cons_append, enter]
    cases childModule ds m with
    | none => rfl
    | some ds' => exact enter_snoc p ds'

theorem scopeOf_snoc {files : Files} {m : List String} {ds : List Simplify.Definition} {n : String}
    (h : scopeOf files m = some ds) : scopeOf files (m ++ [n]) = childModule ds n := by
  cases m with
  | nil => cases h
  | cons stem mods =>
    simp only [scopeOf, List.cons_append] at h ⊢
    cases hf : files.find? (fun f => decide (f.1 = stem)) with
    | none => simp [hf] at h
    | some f =>
      simp only [hf] at h ⊢
      rw [enter_snoc, h]
      rfl

/-- In an accepted project the emitted modules are the modules of the schemas. -/
theorem emitted_items {values : List (String × Ast.Schema)} {files : Files} {o : BytesType} (hg : Generated values files)
    (hnd : (files.map (·.1)).Nodup) (hu : ∀ v ∈ values, UniqueNames v.2.definitions) {m : List String} {items : List Rust.Item}
    (h : Emitted files o m items) : moduleItems files o m = some items := by
  induction h with
  | @file stem s _ hs hi =>
    simp only [compileSchema, bind, pure, Option.bind_eq_some_iff, Option.some.injEq] at hi
    obtain ⟨is, his, rfl⟩ := hi
    have hf : files.find? (fun f => decide (f.1 = stem)) = some (stem, s) := find_of_nodup hnd hs
    simp only [moduleItems, scopeOf, hf, enter, Option.bind_some, his, Option.map_some]
  | inner _ hm ih =>
    simp only [moduleItems, Option.bind_eq_some_iff, Option.map_eq_some_iff] at ih
    obtain ⟨es, hs, is, his, rfl⟩ := ih
    obtain ⟨es', rest, h1, h2, rfl⟩ := module_back o his ((List.mem_cons.1 hm).resolve_left (by nofun))
    obtain ⟨stem, s, mods, scope, rfl, h4, h5, h6⟩ := scopeOf_back hg hs
    have hc := childModule_of_mem h6 ((hu _ h4).at h5).here h1
    simp only [moduleItems, scopeOf_snoc hs, hc, Option.bind_some, h2, Option.map_some]

end Mabo.Clash
