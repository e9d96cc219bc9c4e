import Verif.Go.Finish
import Verif.Go.Project
import Verif.Build.ProjectLemmas
/-! What the Go generator writes. -/
namespace Mabo.Go
open Mabo.Spec Mabo.Simplify Mabo.Build
open Mabo.Spec.Go (ModuleIn goPath)
open Mabo.Parse (Text Std)

/-- What a definition adds to the file it is in: modules have files of their own, imports add nothing. -/
def definitionText (std : Std) (checked : Bool) (d : Ast.Definition) : Option Text :=
  match simplifyDefinition checked d with
  | some (.struct s) => renderStruct s
  | some (.enum e) => renderEnum e
  | some (.typeAlias a) => renderAlias a
  | some (.const c) => renderConst std c
  | some (.module _ _ _) | some (.import _ _) => some []
  | none => none

/-- The Go file for these definitions: preamble with the package's name and comment, then the text of each definition. -/
def GoFile (std : Std) (checked : Bool) (name : String) (lines : List String) (ds : List Ast.Definition) (c : Text) : Prop :=
  ∃ pre texts, fmt [header, package name lines, imports] = some pre ∧
    Each (fun d t => definitionText std checked d = some t) ds texts ∧ c = pre ++ texts.flatten

theorem goFile_unique {std : Std} {checked : Bool} {name : String} {lines : List String} {ds : List Ast.Definition}
    {c c' : Text} (h : GoFile std checked name lines ds c) (h' : GoFile std checked name lines ds c') : c = c' := by
  obtain ⟨pre, ts, h1, h2, rfl⟩ := h
  obtain ⟨pre', ts', h1', h2', rfl⟩ := h'
  rw [h1] at h1'; cases h1'
  have : ts = ts' := by
    clear h1
    induction h2 generalizing ts' with
    | nil => cases h2'; rfl
    | cons h _ ih =>
      cases h2' with
      | cons h' hs' => rw [h] at h'; cases h'; rw [ih _ hs']
  rw [this]

theorem render_split {std : Std} {d : Definition} {ds : List Definition} {body : Text} {os : List Output}
    (h : renderDefinitions std (d :: ds) = some (body, os)) :
    ∃ t o ts os', renderDefinition std d = some (t, o) ∧ renderDefinitions std ds = some (ts, os') ∧
      body = t ++ ts ∧ os = o.toList ++ os' := by
  rw [renderDefinitions] at h
  simp only [Option.bind_eq_bind, Option.bind_eq_some_iff, Option.pure_def, Option.some.injEq, Prod.mk.injEq] at h
  obtain ⟨⟨t, o⟩, h1, ⟨ts, os'⟩, h2, h3, h4⟩ := h
  exact ⟨t, o, ts, os', h1, h2, h3.symm, h4.symm⟩

theorem writeOutputs_append (parent : List Text) : ∀ a b, writeOutputs parent (a ++ b) = writeOutputs parent a ++ writeOutputs parent b
  | [], b => rfl
  | o :: a, b => by simp [writeOutputs, writeOutputs_append parent a b]

/-- A definition that is no module. -/
theorem render_plain {std : Std} {checked : Bool} {d : Ast.Definition} {e : Definition} {t : Text} {o : Option Output}
    (hs : simplifyDefinition checked d = some e) (hr : renderDefinition std e = some (t, o))
    (hm : ∀ c n ds, d ≠ .module c n ds) : o = none ∧ definitionText std checked d = some t := by
  cases d with
  | module c n ds => exact absurd rfl (hm c n ds)
  | struct s =>
    simp only [simplifyDefinition, Option.bind_eq_bind, Option.bind_eq_some_iff, Option.pure_def, Option.some.injEq] at hs
    obtain ⟨fs, hf, rfl⟩ := hs
    simp only [renderDefinition, Option.bind_eq_bind, Option.bind_eq_some_iff, Option.pure_def, Option.some.injEq,
      Prod.mk.injEq] at hr
    obtain ⟨x, hx, rfl, rfl⟩ := hr
    exact ⟨rfl, by simp [definitionText, simplifyDefinition, hf, hx]⟩
  | enum s =>
    simp only [simplifyDefinition, Option.bind_eq_bind, Option.bind_eq_some_iff, Option.pure_def, Option.some.injEq] at hs
    obtain ⟨fs, hf, rfl⟩ := hs
    simp only [renderDefinition, Option.bind_eq_bind, Option.bind_eq_some_iff, Option.pure_def, Option.some.injEq,
      Prod.mk.injEq] at hr
    obtain ⟨x, hx, rfl, rfl⟩ := hr
    exact ⟨rfl, by simp [definitionText, simplifyDefinition, hf, hx]⟩
  | typeAlias a =>
    simp only [simplifyDefinition, Option.some.injEq] at hs
    subst hs
    simp only [renderDefinition, Option.bind_eq_bind, Option.bind_eq_some_iff, Option.pure_def, Option.some.injEq,
      Prod.mk.injEq] at hr
    obtain ⟨x, hx, rfl, rfl⟩ := hr
    exact ⟨rfl, by simp [definitionText, simplifyDefinition, hx]⟩
  | const a =>
    simp only [simplifyDefinition, Option.some.injEq] at hs
    subst hs
    simp only [renderDefinition, Option.bind_eq_bind, Option.bind_eq_some_iff, Option.pure_def, Option.some.injEq,
      Prod.mk.injEq] at hr
    obtain ⟨x, hx, rfl, rfl⟩ := hr
    exact ⟨rfl, by simp [definitionText, simplifyDefinition, hx]⟩
  | «import» i =>
    simp only [simplifyDefinition, Option.some.injEq] at hs
    subst hs
    simp only [renderDefinition, Option.some.injEq, Prod.mk.injEq] at hr
    obtain ⟨rfl, rfl⟩ := hr
    exact ⟨rfl, by simp [definitionText, simplifyDefinition]⟩

/-- A module. -/
theorem render_module {std : Std} {checked : Bool} {c : List String} {n : String} {ds : List Ast.Definition}
    {e : Definition} {t : Text} {o : Option Output}
    (hs : simplifyDefinition checked (.module c n ds) = some e) (hr : renderDefinition std e = some (t, o)) :
    t = [] ∧ definitionText std checked (.module c n ds) = some [] ∧
    ∃ es pre body os, simplifyDefinitions checked ds = some es ∧ fmt [header, package n c, imports] = some pre ∧
      renderDefinitions std es = some (body, os) ∧ o = some (.mk n (pre ++ body) os) := by
  simp only [simplifyDefinition, Option.bind_eq_bind, Option.bind_eq_some_iff, Option.pure_def, Option.some.injEq] at hs
  obtain ⟨es, he, rfl⟩ := hs
  simp only [renderDefinition, Option.bind_eq_bind, Option.bind_eq_some_iff, Option.pure_def, Option.some.injEq,
    Prod.mk.injEq] at hr
  obtain ⟨pre, hp, ⟨body, os⟩, hb, rfl, rfl⟩ := hr
  exact ⟨rfl, by simp [definitionText, simplifyDefinition, he], es, pre, body, os, he, hp, hb, rfl⟩

/-- The text of a list of definitions. -/
theorem render_body {std : Std} {checked : Bool} : ∀ {ds : List Ast.Definition} {es : List Definition} {body : Text}
    {os : List Output}, simplifyDefinitions checked ds = some es → renderDefinitions std es = some (body, os) →
    ∃ texts, Each (fun d t => definitionText std checked d = some t) ds texts ∧ body = texts.flatten
  | [], es, body, os, hs, hr => by
    simp only [simplifyDefinitions, Option.some.injEq] at hs; subst hs
    simp only [renderDefinitions, Option.some.injEq, Prod.mk.injEq] at hr
    exact ⟨[], .nil, hr.1.symm⟩
  | d :: ds, es, body, os, hs, hr => by
    simp only [simplifyDefinitions, Option.bind_eq_bind, Option.bind_eq_some_iff, Option.pure_def, Option.some.injEq] at hs
    obtain ⟨e, he, es', hes, rfl⟩ := hs
    obtain ⟨t, o, ts, os', h1, h2, rfl, rfl⟩ := render_split hr
    obtain ⟨texts, h3, rfl⟩ := render_body hes h2
    refine ⟨t :: texts, .cons ?_ h3, rfl⟩
    by_cases hm : ∃ c n ds', d = .module c n ds'
    · obtain ⟨c, n, ds', rfl⟩ := hm
      obtain ⟨rfl, h4, _⟩ := render_module he h1
      exact h4
    · exact (render_plain he h1 fun c n ds' e => hm ⟨c, n, ds', e⟩).2

theorem goPath_cons (out : List Text) (n m : String) (ns : List String) :
    goPath out (n :: m :: ns) = goPath (out ++ [n.toList]) (m :: ns) := by
  simp [goPath]

theorem goPath_one (out : List Text) (n : String) : goPath out [n] = out ++ [n.toList, n.toList ++ ".go".toList] := by
  simp [goPath]

theorem moduleIn_ne {ds inner : List Ast.Definition} {path comment : List String} (h : ModuleIn ds path comment inner) :
    path ≠ [] := by cases h <;> simp

mutual
/-- The files below a definition. -/
theorem files_of {std : Std} {checked : Bool} : ∀ (d : Ast.Definition) (e : Definition) (t : Text) (o : Option Output)
    (parent : List Text) (p : List Text) (x : Text), simplifyDefinition checked d = some e →
    renderDefinition std e = some (t, o) →
    ((p, x) ∈ writeOutputs parent o.toList ↔
      ∃ path comment inner, ModuleIn [d] path comment inner ∧ p = goPath parent path ∧
        GoFile std checked (path.getLast?.getD "") comment inner x)
  | .module c n ds, e, t, o, parent, p, x, hs, hr => by
    obtain ⟨rfl, h4, es, pre, body, os, h5, h6, h7, rfl⟩ := render_module hs hr
    obtain ⟨texts, hb1, hb2⟩ := render_body h5 h7
    have hf : GoFile std checked n c ds (pre ++ body) := ⟨pre, texts, h6, hb1, by rw [hb2]⟩
    simp only [Option.toList_some, writeOutputs, List.append_nil, writeOutput, List.mem_cons,
      files_of_all ds es body os (parent ++ [n.toList]) p x h5 h7, Prod.mk.injEq]
    constructor
    · rintro (⟨rfl, rfl⟩ | ⟨path, comment, inner, h1, rfl, h3⟩)
      · exact ⟨[n], c, ds, .here (by simp), (goPath_one parent n).symm, by simpa using hf⟩
      · refine ⟨n :: path, comment, inner, .enter (List.mem_singleton.2 rfl) h1, ?_, ?_⟩
        · cases path with
          | nil => exact absurd rfl (moduleIn_ne h1)
          | cons m ns => exact (goPath_cons parent n m ns).symm
        · cases path with
          | nil => exact absurd rfl (moduleIn_ne h1)
          | cons m ns => simpa using h3
    · rintro ⟨path, comment, inner, h1, rfl, h3⟩
      cases h1 with
      | here hm =>
        have hm := List.mem_singleton.1 hm
        injection hm with e1 e2 e3
        subst e1 e2 e3
        refine .inl ⟨(goPath_one parent _), goFile_unique (by simpa using h3) hf⟩
      | @enter _ mid _ _ outer name path hm h1 =>
        have hm := List.mem_singleton.1 hm
        injection hm with e1 e2 e3
        subst e1 e2 e3
        cases path with
        | nil => exact absurd rfl (moduleIn_ne h1)
        | cons m ns => exact .inr ⟨m :: ns, comment, inner, h1, goPath_cons parent _ m ns, by simpa using h3⟩
  | .struct s, e, t, o, parent, p, x, hs, hr => by
    obtain ⟨rfl, _⟩ := render_plain hs hr (by simp)
    simp only [Option.toList_none, writeOutputs, List.not_mem_nil, false_iff]
    rintro ⟨path, comment, inner, h1, _⟩
    cases h1 <;> rename_i hm <;> first | (have hm := List.mem_singleton.1 hm; cases hm) | (rename_i hm' _; have hm := List.mem_singleton.1 hm'; cases hm)
  | .enum s, e, t, o, parent, p, x, hs, hr => by
    obtain ⟨rfl, _⟩ := render_plain hs hr (by simp)
    simp only [Option.toList_none, writeOutputs, List.not_mem_nil, false_iff]
    rintro ⟨path, comment, inner, h1, _⟩
    cases h1 <;> rename_i hm <;> first | (have hm := List.mem_singleton.1 hm; cases hm) | (rename_i hm' _; have hm := List.mem_singleton.1 hm'; cases hm)
  | .typeAlias s, e, t, o, parent, p, x, hs, hr => by
    obtain ⟨rfl, _⟩ := render_plain hs hr (by simp)
    simp only [Option.toList_none, writeOutputs, List.not_mem_nil, false_iff]
    rintro ⟨path, comment, inner, h1, _⟩
    cases h1 <;> rename_i hm <;> first | (have hm := List.mem_singleton.1 hm; cases hm) | (rename_i hm' _; have hm := List.mem_singleton.1 hm'; cases hm)
  | .const s, e, t, o, parent, p, x, hs, hr => by
    obtain ⟨rfl, _⟩ := render_plain hs hr (by simp)
    simp only [Option.toList_none, writeOutputs, List.not_mem_nil, false_iff]
    rintro ⟨path, comment, inner, h1, _⟩
    cases h1 <;> rename_i hm <;> first | (have hm := List.mem_singleton.1 hm; cases hm) | (rename_i hm' _; have hm := List.mem_singleton.1 hm'; cases hm)
  | .import s, e, t, o, parent, p, x, hs, hr => by
    obtain ⟨rfl, _⟩ := render_plain hs hr (by simp)
    simp only [Option.toList_none, writeOutputs, List.not_mem_nil, false_iff]
    rintro ⟨path, comment, inner, h1, _⟩
    cases h1 <;> rename_i hm <;> first | (have hm := List.mem_singleton.1 hm; cases hm) | (rename_i hm' _; have hm := List.mem_singleton.1 hm'; cases hm)
theorem files_of_all {std : Std} {checked : Bool} : ∀ (ds : List Ast.Definition) (es : List Definition) (body : Text)
    (os : List Output) (parent : List Text) (p : List Text) (x : Text), simplifyDefinitions checked ds = some es →
    renderDefinitions std es = some (body, os) →
    ((p, x) ∈ writeOutputs parent os ↔
      ∃ path comment inner, ModuleIn ds path comment inner ∧ p = goPath parent path ∧
        GoFile std checked (path.getLast?.getD "") comment inner x)
  | [], es, body, os, parent, p, x, hs, hr => by
    simp only [simplifyDefinitions, Option.some.injEq] at hs; subst hs
    simp only [renderDefinitions, Option.some.injEq, Prod.mk.injEq] at hr
    obtain ⟨rfl, rfl⟩ := hr
    simp only [writeOutputs, List.not_mem_nil, false_iff]
    rintro ⟨path, comment, inner, h1, _⟩
    cases h1 <;> rename_i hm <;> first | exact absurd hm List.not_mem_nil | (rename_i hm' _; exact absurd hm' List.not_mem_nil)
  | d :: ds, es, body, os, parent, p, x, hs, hr => by
    simp only [simplifyDefinitions, Option.bind_eq_bind, Option.bind_eq_some_iff, Option.pure_def, Option.some.injEq] at hs
    obtain ⟨e, he, es', hes, rfl⟩ := hs
    obtain ⟨t, o, ts, os', h1, h2, rfl, rfl⟩ := render_split hr
    rw [writeOutputs_append, List.mem_append, files_of d e t o parent p x he h1, files_of_all ds es' ts os' parent p x hes h2]
    constructor
    · rintro (⟨path, comment, inner, h3, h4⟩ | ⟨path, comment, inner, h3, h4⟩)
      · refine ⟨path, comment, inner, ?_, h4⟩
        cases h3 with
        | here hm => rw [List.mem_singleton] at hm; exact .here (by simp [hm])
        | enter hm h => rw [List.mem_singleton] at hm; exact .enter (List.mem_cons.2 (.inl hm)) h
      · refine ⟨path, comment, inner, ?_, h4⟩
        cases h3 with
        | here hm => exact .here (List.mem_cons_of_mem _ hm)
        | enter hm h => exact .enter (List.mem_cons_of_mem _ hm) h
    · rintro ⟨path, comment, inner, h3, h4⟩
      cases h3 with
      | here hm =>
        rcases List.mem_cons.1 hm with hm | hm
        · exact .inl ⟨_, _, _, .here (List.mem_singleton.2 hm), h4⟩
        · exact .inr ⟨_, _, _, .here hm, h4⟩
      | enter hm h =>
        rcases List.mem_cons.1 hm with hm | hm
        · exact .inl ⟨_, _, _, .enter (List.mem_singleton.2 hm) h, h4⟩
        · exact .inr ⟨_, _, _, .enter hm h, h4⟩
end

/-- All files of a schema. -/
theorem schema_files {std : Std} {checked : Bool} {pkg : String} {s : Ast.Schema} {t : Schema} {o : Output}
    {out : List Text} (hs : simplifySchema checked s = some t) (hr : renderSchema std pkg t = some o)
    (p : List Text) (x : Text) :
    (p, x) ∈ writeOutput out o ↔
      (p = goPath out [pkg] ∧ GoFile std checked pkg [] s.definitions x) ∨
      ∃ path comment inner, ModuleIn s.definitions path comment inner ∧ p = goPath out (pkg :: path) ∧
        GoFile std checked (path.getLast?.getD "") comment inner x := by
  simp only [simplifySchema, Option.bind_eq_bind, Option.bind_eq_some_iff, Option.pure_def, Option.some.injEq] at hs
  obtain ⟨es, he, rfl⟩ := hs
  simp only [renderSchema, Option.bind_eq_bind, Option.bind_eq_some_iff, Option.pure_def, Option.some.injEq] at hr
  obtain ⟨pre, hp, ⟨body, os⟩, hb, rfl⟩ := hr
  obtain ⟨texts, hb1, hb2⟩ := render_body he hb
  have hf : GoFile std checked pkg [] s.definitions (pre ++ body) := ⟨pre, texts, hp, hb1, by rw [hb2]⟩
  rw [writeOutput, List.mem_cons, files_of_all _ es body os _ p x he hb, goPath_one]
  simp only [Prod.mk.injEq]
  constructor
  · rintro (⟨h1, rfl⟩ | ⟨path, comment, inner, h1, rfl, h3⟩)
    · exact .inl ⟨h1, hf⟩
    · refine .inr ⟨path, comment, inner, h1, ?_, h3⟩
      cases path with
      | nil => exact absurd rfl (moduleIn_ne h1)
      | cons m ns => exact (goPath_cons out pkg m ns).symm
  · rintro (⟨h1, h2⟩ | ⟨path, comment, inner, h1, rfl, h3⟩)
    · exact .inl ⟨h1, goFile_unique h2 hf⟩
    · refine .inr ⟨path, comment, inner, h1, ?_, h3⟩
      cases path with
      | nil => exact absurd rfl (moduleIn_ne h1)
      | cons m ns => exact goPath_cons out pkg m ns

theorem onDisk_append (a b : Writes) (p : List Text) : onDisk (a ++ b) p = (onDisk b p).or (onDisk a p) := by
  simp only [onDisk, List.reverse_append, List.find?_append]
  cases List.find? (fun w => decide (w.1 = p)) b.reverse <;> simp

/-- If all writes to a path have the same content, that is what is there. -/
theorem onDisk_some {ws : Writes} {p : List Text} {x : Text} (h : (p, x) ∈ ws) (hu : ∀ y, (p, y) ∈ ws → y = x) :
    onDisk ws p = some x := by
  cases hf : ws.reverse.find? fun w => decide (w.1 = p) with
  | none =>
    have := List.find?_eq_none.1 hf (p, x) (List.mem_reverse.2 h)
    simp at this
  | some w =>
    have hm := List.mem_reverse.1 (List.mem_of_find?_eq_some hf)
    have hp := List.find?_some hf
    simp only [decide_eq_true_eq] at hp
    obtain ⟨q, y⟩ := w
    simp only at hp; subst hp
    simp [onDisk, hf, hu y hm]

theorem onDisk_mem {ws : Writes} {p : List Text} {x : Text} (h : onDisk ws p = some x) : (p, x) ∈ ws := by
  simp only [onDisk, Option.map_eq_some_iff] at h
  obtain ⟨⟨q, y⟩, hf, rfl⟩ := h
  have hm := List.mem_reverse.1 (List.mem_of_find?_eq_some hf)
  have hp := List.find?_some hf
  simp only [decide_eq_true_eq] at hp
  subst hp; exact hm

theorem onDisk_none {ws : Writes} {p : List Text} : onDisk ws p = none ↔ ∀ x, (p, x) ∉ ws := by
  constructor
  · intro h x hm
    simp only [onDisk, Option.map_eq_none_iff, List.find?_eq_none, List.mem_reverse, decide_eq_true_eq] at h
    exact h _ hm rfl
  · intro h
    cases hd : onDisk ws p with
    | none => rfl
    | some x => exact absurd (onDisk_mem hd) (h x)

theorem goPath_inj {out : List Text} {a b : List String} (h : goPath out a = goPath out b) : a = b := by
  simp only [goPath, List.append_assoc, List.append_cancel_left_eq] at h
  have h := (List.append_inj' h rfl).1
  exact (List.map_inj_right (fun x y h => String.toList_inj.1 h)).1 h

/-- Distinct names in each list of definitions make a module path unambiguous. -/
theorem moduleIn_unique {ds inner inner' : List Ast.Definition} {path c c' : List String}
    (hn : ∀ {ds' : List Ast.Definition}, (ds' = ds ∨ ∃ p c, ModuleIn ds p c ds') → (ds'.flatMap introduced).Nodup)
    (h : ModuleIn ds path c inner) (h' : ModuleIn ds path c' inner') : c = c' ∧ inner = inner' := by
  have key : ∀ {ds : List Ast.Definition} {a b : List String} {n : String} {x y : List Ast.Definition},
      (ds.flatMap introduced).Nodup → Ast.Definition.module a n x ∈ ds → Ast.Definition.module b n y ∈ ds → a = b ∧ x = y := by
    intro ds a b n x y hd hx hy
    induction ds with
    | nil => cases hx
    | cons d ds ih =>
      rw [List.flatMap_cons, List.nodup_append] at hd
      have hin : ∀ {a : List String} {x : List Ast.Definition}, Ast.Definition.module a n x ∈ ds → n ∈ ds.flatMap introduced :=
        fun hm => List.mem_flatMap.2 ⟨_, hm, by simp [introduced]⟩
      rcases List.mem_cons.1 hx with hx | hx
      · rcases List.mem_cons.1 hy with hy | hy
        · rw [← hx] at hy; injection hy with e1 _ e2; exact ⟨e1.symm, e2.symm⟩
        · exact absurd rfl (hd.2.2 n (by rw [← hx]; simp [introduced]) n (hin hy))
      · rcases List.mem_cons.1 hy with hy | hy
        · exact absurd rfl (hd.2.2 n (by rw [← hy]; simp [introduced]) n (hin hx))
        · exact ih hd.2.1 hx hy
  induction h with
  | here hm =>
    cases h' with
    | here hm' => exact key (hn (.inl rfl)) hm hm'
    | enter _ h => exact absurd rfl (moduleIn_ne h)
  | enter hm h ih =>
    cases h' with
    | here _ => exact absurd rfl (moduleIn_ne h)
    | enter hm' h' =>
      obtain ⟨rfl, rfl⟩ := key (hn (.inl rfl)) hm hm'
      refine ih (fun {ds'} hd => hn ?_) h'
      rcases hd with rfl | ⟨p, c, hd⟩
      · exact .inr ⟨_, _, .here hm⟩
      · exact .inr ⟨_, _, .enter hm hd⟩

theorem moduleIn_scope {s : Ast.Schema} {ds inner : List Ast.Definition} {path c : List String} (hs : Scope s ds)
    (h : ModuleIn ds path c inner) : Scope s inner := by
  induction h with
  | here hm => exact .module hs hm
  | enter hm _ ih => exact ih (.module hs hm)

theorem valid_moduleIn {s : Ast.Schema} (hv : ValidSchema s) {inner inner' : List Ast.Definition} {path c c' : List String}
    (h : ModuleIn s.definitions path c inner) (h' : ModuleIn s.definitions path c' inner') : c = c' ∧ inner = inner' := by
  refine moduleIn_unique (fun {ds'} hd => hv.names.scopes ds' ?_) h h'
  rcases hd with rfl | ⟨p, c, hd⟩
  · exact .root
  · exact moduleIn_scope .root hd

/-! ### Several schema files -/

/-- The output of a schema. -/
def Makes (std : Std) (checked : Bool) (pkg : String) (v : String × Ast.Schema) (o : Output) : Prop :=
  ∃ t, simplifySchema checked v.2 = some t ∧ renderSchema std pkg t = some o

theorem generateAll_ok {std : Std} {checked : Bool} {out : List Text} {pkg : String} :
    ∀ {vs : List (String × Ast.Schema)} {ws : Writes}, generateAll std checked out pkg vs = (.ok (), ws) ↔
      ∃ os, Each (Makes std checked pkg) vs os ∧ ws = writeOutputs out os
  | [], ws => by
    constructor
    · intro h; cases h; exact ⟨[], .nil, rfl⟩
    · rintro ⟨os, h, rfl⟩; cases h; rfl
  | (stem, s) :: vs, ws => by
    have ih := @generateAll_ok std checked out pkg vs
    constructor
    · intro h
      simp only [generateAll] at h
      cases hs : simplifySchema checked s with
      | none => rw [hs] at h; cases h
      | some t =>
        simp only [hs] at h
        cases hr : renderSchema std pkg t with
        | none => simp only [hr] at h; cases h
        | some o =>
          simp only [hr] at h
          cases hg : generateAll std checked out pkg vs with
          | mk r ws' =>
            rw [hg] at h
            simp only [Prod.mk.injEq] at h
            obtain ⟨rfl, rfl⟩ := h
            obtain ⟨os, h1, rfl⟩ := ih.1 hg
            exact ⟨o :: os, .cons ⟨t, hs, hr⟩ h1, rfl⟩
    · rintro ⟨os, h, rfl⟩
      cases h with
      | cons h hs =>
        obtain ⟨t, h1, h2⟩ := h
        simp only at h1
        simp only [generateAll, h1, h2, ih.2 ⟨_, hs, rfl⟩]
        rfl

theorem run_ok {order : Resolve.Order} {std : Std} {checked : Bool} {out : List Text} {pkg : String}
    {inputs : List (String × Text)} {ws : Writes} : run order std checked out pkg inputs = (.ok (), ws) ↔
      ∃ values os, Each (Loads std checked) inputs values ∧ Resolve.resolveSchemas order values = .ok ∧
        Each (Makes std checked pkg) values os ∧ ws = writeOutputs out os := by
  constructor
  · intro h
    simp only [run] at h
    cases hl : loadAll std checked inputs with
    | err => rw [hl] at h; cases h
    | panic => rw [hl] at h; cases h
    | ok values =>
      simp only [hl] at h
      cases hr : Resolve.resolveSchemas order values with
      | err _ => rw [hr] at h; cases h
      | panic => rw [hr] at h; cases h
      | ok =>
        simp only [hr] at h
        obtain ⟨os, h1, h2⟩ := generateAll_ok.1 h
        exact ⟨values, os, loadAll_ok.1 hl, hr, h1, h2⟩
  · rintro ⟨values, os, h1, h2, h3, h4⟩
    simp only [run, loadAll_ok.2 h1, h2]
    exact generateAll_ok.2 ⟨os, h3, h4⟩

end Mabo.Go
