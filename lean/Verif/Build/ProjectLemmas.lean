import Verif.Build.Meaning
/-! What `compile` does to a list of files. -/
namespace Mabo.Build
open Mabo.Spec Mabo.Simplify
open Mabo.Parse (Text Std)

/-- The schema of an input file: it parses and is valid. -/
def Loads (std : Std) (checked : Bool) (i : String × Text) (v : String × Ast.Schema) : Prop :=
  v.1 = i.1 ∧ Parse.parseSchema std i.2 = some v.2 ∧ Compiler.validateSchema checked v.2 = .ok

/-- Related, element by element. -/
inductive Each {α β : Type} (R : α → β → Prop) : List α → List β → Prop where
  | nil : Each R [] []
  | cons {a b as bs} : R a b → Each R as bs → Each R (a :: as) (b :: bs)

theorem Each.right {α β : Type} {R : α → β → Prop} {as : List α} {bs : List β} (h : Each R as bs) :
    ∀ b ∈ bs, ∃ a ∈ as, R a b := by
  induction h with
  | nil => simp
  | cons h _ ih =>
    intro b hb
    rcases List.mem_cons.1 hb with rfl | hb
    · exact ⟨_, List.mem_cons_self .., h⟩
    · obtain ⟨a, ha, hr⟩ := ih b hb
      exact ⟨a, List.mem_cons_of_mem _ ha, hr⟩

theorem Each.left {α β : Type} {R : α → β → Prop} {as : List α} {bs : List β} (h : Each R as bs) :
    ∀ a ∈ as, ∃ b ∈ bs, R a b := by
  induction h with
  | nil => simp
  | cons h _ ih =>
    intro b hb
    rcases List.mem_cons.1 hb with rfl | hb
    · exact ⟨_, List.mem_cons_self .., h⟩
    · obtain ⟨a, ha, hr⟩ := ih b hb
      exact ⟨a, List.mem_cons_of_mem _ ha, hr⟩

theorem Each.exists {α β : Type} {R : α → β → Prop} : ∀ {as : List α}, (∀ a ∈ as, ∃ b, R a b) → ∃ bs, Each R as bs
  | [], _ => ⟨[], .nil⟩
  | a :: as, h => by
    obtain ⟨b, hb⟩ := h a (List.mem_cons_self ..)
    obtain ⟨bs, hbs⟩ := Each.exists (as := as) fun a ha => h a (List.mem_cons_of_mem _ ha)
    exact ⟨_, .cons hb hbs⟩

theorem each_names {std : Std} {checked : Bool} {is : List (String × Text)} {vs : List (String × Ast.Schema)}
    (h : Each (Loads std checked) is vs) : vs.map (·.1) = is.map (·.1) := by
  induction h with
  | nil => rfl
  | cons h _ ih => simp [ih, h.1]

theorem loadAll_ok {std : Std} {checked : Bool} : ∀ {is : List (String × Text)} {vs : List (String × Ast.Schema)},
    loadAll std checked is = .ok vs ↔ Each (Loads std checked) is vs
  | [], vs => by
    constructor
    · intro h; cases h; exact .nil
    · intro h; cases h; rfl
  | (stem, text) :: is, vs => by
    have ih := @loadAll_ok std checked is
    constructor
    · intro h
      simp only [loadAll] at h
      cases hp : Parse.parseSchema std text with
      | none => rw [hp] at h; cases h
      | some s =>
        simp only [hp] at h
        cases hv : Compiler.validateSchema checked s with
        | err _ => rw [hv] at h; cases h
        | panic => rw [hv] at h; cases h
        | ok =>
          simp only [hv] at h
          cases hl : loadAll std checked is with
          | err => rw [hl] at h; cases h
          | panic => rw [hl] at h; cases h
          | ok ss =>
            rw [hl] at h
            cases h
            exact .cons ⟨rfl, hp, hv⟩ (ih.1 hl)
    · intro h
      cases h with
      | cons h hs =>
        rename_i v vs
        obtain ⟨h1, h2, h3⟩ := h
        obtain ⟨n, s⟩ := v
        simp only at h1 h2 h3
        subst h1
        simp only [loadAll, h2, h3, ih.2 hs]

/-- The file generated for a schema. -/
def Gen (valid : Simplify.Schema → Bool) (checked : Bool) (v : String × Ast.Schema) (f : String × Simplify.Schema) : Prop :=
  f.1 = v.1 ∧ simplifySchema checked v.2 = some f.2 ∧ Generator.compileOk f.2 = true ∧ valid f.2 = true

/-- Files written one after the other. -/
def writeAll (files : Files) : Files → Files
  | [] => files
  | f :: fs => writeAll (write files f.1 f.2) fs

theorem generateAll_ok {valid : Simplify.Schema → Bool} {checked : Bool} : ∀ {vs : List (String × Ast.Schema)}
    {files out : Files}, generateAll valid checked vs files = ⟨.ok (), out⟩ ↔
      ∃ fs, Each (Gen valid checked) vs fs ∧ out = writeAll files fs
  | [], files, out => by
    constructor
    · intro h; cases h; exact ⟨[], .nil, rfl⟩
    · rintro ⟨fs, h, rfl⟩; cases h; rfl
  | (stem, s) :: vs, files, out => by
    have ih := @generateAll_ok valid checked vs
    constructor
    · intro h
      simp only [generateAll] at h
      cases hs : simplifySchema checked s with
      | none => simp [hs] at h
      | some t =>
        simp only [hs] at h
        by_cases hc : Generator.compileOk t = true
        · rw [if_pos hc] at h
          by_cases hv : valid t = true
          · rw [if_pos hv] at h
            obtain ⟨fs, h1, h2⟩ := ih.1 h
            exact ⟨(stem, t) :: fs, .cons ⟨rfl, hs, hc, hv⟩ h1, h2⟩
          · rw [if_neg hv] at h; simp at h
        · rw [if_neg hc] at h; simp at h
    · rintro ⟨fs, h, rfl⟩
      cases h with
      | cons h hs =>
        rename_i f fs
        obtain ⟨n, t⟩ := f
        obtain ⟨h1, h2, h3, h4⟩ := h
        simp only at h1 h2 h3 h4
        subst h1
        simp only [generateAll, h2, h3, h4, if_true]
        exact ih.2 ⟨fs, hs, rfl⟩

/-- The last file written under a name. -/
theorem writeAll_find (fs : Files) : ∀ (files : Files) (stem : String),
    (writeAll files fs).find? (fun f => decide (f.1 = stem)) =
      (fs.reverse ++ files).find? (fun f => decide (f.1 = stem)) := by
  induction fs with
  | nil => intro files stem; rfl
  | cons f fs ih =>
    intro files stem
    simp only [writeAll, ih, List.reverse_cons, List.append_assoc, List.find?_append]
    congr 1
    simp only [write, List.find?_cons]
    by_cases h : f.1 = stem
    · subst h; simp
    · simp only [h, decide_false]
      induction files with
      | nil => rfl
      | cons g gs ihg =>
        by_cases hg : g.1 = f.1
        · have : g.1 ≠ stem := by rw [hg]; exact h
          simp [List.filter_cons, hg, h, List.find?_cons]
          simpa [List.find?_filter] using ihg
        · simp only [List.filter_cons, ne_eq, hg, not_false_eq_true, decide_true, if_true, List.find?_cons]
          by_cases hs : g.1 = stem
          · simp [hs]
          · simp only [hs, decide_false]; exact ihg

theorem mem_writeAll {fs : Files} : ∀ {files : Files} {f : String × Simplify.Schema}, f ∈ writeAll files fs →
    f ∈ fs ∨ f ∈ files := by
  induction fs with
  | nil => intro files f h; exact .inr h
  | cons g gs ih =>
    intro files f h
    rcases ih h with h | h
    · exact .inl (List.mem_cons_of_mem _ h)
    · simp only [write, List.mem_cons, List.mem_filter] at h
      rcases h with h | h
      · exact .inl (by rw [h]; exact List.mem_cons_self ..)
      · exact .inr h.1

/-- The names of written files are different. -/
theorem writeAll_nodup {fs : Files} : ∀ {files : Files}, (files.map (·.1)).Nodup → ((writeAll files fs).map (·.1)).Nodup := by
  induction fs with
  | nil => intro files h; exact h
  | cons g gs ih =>
    intro files h
    refine ih ?_
    simp only [write, List.map_cons, List.nodup_cons]
    refine ⟨by simp, ?_⟩
    exact List.Nodup.sublist (List.Sublist.map _ (List.filter_sublist ..)) h

theorem compile_ok {order : Resolve.Order} {std : Std} {valid : Simplify.Schema → Bool} {checked : Bool}
    {inputs : List (String × Text)} {files : Files} :
    compile order std valid checked inputs = ⟨.ok (), files⟩ ↔
      ∃ values fs, Each (Loads std checked) inputs values ∧ Resolve.resolveSchemas order values = .ok ∧
        Each (Gen valid checked) values fs ∧ files = writeAll [] fs := by
  constructor
  · intro h
    simp only [compile] at h
    cases hl : loadAll std checked inputs with
    | err => simp [hl] at h
    | panic => simp [hl] at h
    | ok values =>
      simp only [hl] at h
      cases hr : Resolve.resolveSchemas order values with
      | err _ => simp [hr] at h
      | panic => simp [hr] at h
      | ok =>
        simp only [hr] at h
        obtain ⟨fs, h1, h2⟩ := generateAll_ok.1 h
        exact ⟨values, fs, loadAll_ok.1 hl, hr, h1, h2⟩
  · rintro ⟨values, fs, h1, h2, h3, h4⟩
    simp only [compile, loadAll_ok.2 h1, h2]
    exact generateAll_ok.2 ⟨fs, h3, h4⟩

theorem find_of_nodup {α : Type} {l : List (String × α)} (h : (l.map (·.1)).Nodup) {n : String} {a : α}
    (hm : (n, a) ∈ l) : l.find? (fun f => decide (f.1 = n)) = some (n, a) := by
  induction l with
  | nil => cases hm
  | cons x xs ih =>
    rw [List.map_cons, List.nodup_cons] at h
    rcases List.mem_cons.1 hm with rfl | hm
    · simp
    · have : x.1 ≠ n := fun hx => h.1 (hx ▸ List.mem_map_of_mem hm)
      simp only [List.find?_cons, this, decide_false]
      exact ih h.2 hm

theorem same_of_simplify {checked : Bool} {s : Ast.Schema} {t : Simplify.Schema}
    (hv : Compiler.validateSchema checked s = .ok) (h : simplifySchema checked s = some t) : SameSchema s t := by
  obtain ⟨t', h1, h2⟩ := Props.C31_validated_simplifies checked s hv
  rw [h, Option.some.injEq] at h1
  exact h1 ▸ h2

theorem gen_names {valid : Simplify.Schema → Bool} {checked : Bool} {vs : List (String × Ast.Schema)} {fs : Files}
    (h : Each (Gen valid checked) vs fs) : fs.map (·.1) = vs.map (·.1) := by
  induction h with
  | nil => rfl
  | cons h _ ih => simp [ih, h.1]

theorem generated_of {valid : Simplify.Schema → Bool} {std : Std} {checked : Bool} {inputs : List (String × Text)}
    {values : List (String × Ast.Schema)} {fs : Files} (hn : (inputs.map (·.1)).Nodup)
    (hl : Each (Loads std checked) inputs values) (hg : Each (Gen valid checked) values fs) :
    Generated values (writeAll [] fs) := by
  have hnv : (values.map (·.1)).Nodup := each_names hl ▸ hn
  have hnf : (fs.map (·.1)).Nodup := gen_names hg ▸ hnv
  refine ⟨fun stem s hs => ?_, fun stem t ht => ?_⟩
  · obtain ⟨⟨n, t⟩, hf, h1, h2, _, _⟩ := hg.left _ hs
    simp only at h1 h2
    subst h1
    obtain ⟨_, _, _, _, hv⟩ := hl.right _ hs
    refine ⟨t, ?_, same_of_simplify hv h2⟩
    rw [writeAll_find, List.append_nil]
    refine find_of_nodup ?_ (List.mem_reverse.2 hf)
    rw [List.map_reverse]
    exact List.pairwise_reverse.2 (hnf.imp Ne.symm)
  · rcases mem_writeAll ht with hf | hf
    · obtain ⟨⟨n, s⟩, hs, h1, h2, _, _⟩ := hg.right _ hf
      simp only at h1 h2
      subst h1
      obtain ⟨_, _, _, _, hv⟩ := hl.right _ hs
      exact ⟨s, hs, same_of_simplify hv h2⟩
    · cases hf

end Mabo.Build
