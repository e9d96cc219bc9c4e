import Verif.Doc.TextMain
/-! Which pages are written, and where. -/
namespace Mabo.Doc
open Mabo.Simplify Mabo.Spec
open Mabo.Parse (Text Std)

/-! ### Paths -/

theorem components_none {w : Text} (h : '/' ∉ w) : components w = [w] := by
  induction w with
  | nil => rfl
  | cons c cs ih =>
    have hc : c ≠ '/' := fun e => h (e ▸ List.mem_cons_self ..)
    have := ih fun hm => h (List.mem_cons_of_mem _ hm)
    rw [components]
    · rw [this]
    · intro e; exact hc e

theorem components_one {w r : Text} (h : '/' ∉ w) : components (w ++ '/' :: r) = w :: components r := by
  induction w with
  | nil => rfl
  | cons c cs ih =>
    have hc : c ≠ '/' := fun e => h (e ▸ List.mem_cons_self ..)
    have := ih fun hm => h (List.mem_cons_of_mem _ hm)
    rw [List.cons_append, components]
    · rw [this]
    · intro e; exact hc e

theorem components_index {w : Text} (h : '/' ∉ w) : components (w ++ "/index.html".toList) = [w, "index.html".toList] := by
  have : w ++ "/index.html".toList = w ++ '/' :: "index.html".toList := rfl
  rw [this, components_one h]; rfl

/-- Neither a slash nor a dot occurs in a name. -/
def Plain (n : String) : Prop := '/' ∉ n.toList ∧ '.' ∉ n.toList

theorem ident_plain {head tail : List Char} {n : String} (h : Ident head tail n) (h1 : '/' ∉ head) (h2 : '/' ∉ tail)
    (h3 : '.' ∉ head) (h4 : '.' ∉ tail) : Plain n := by
  obtain ⟨c, cs, e, hc, hcs⟩ := h
  refine ⟨?_, ?_⟩ <;> rw [e] <;> intro hm <;> rcases List.mem_cons.1 hm with rfl | hm
  · exact h1 hc
  · exact h2 (hcs _ hm)
  · exact h3 hc
  · exact h4 (hcs _ hm)

theorem snake_plain {n : String} (h : SnakeName n) : Plain n := ident_plain h (by decide) (by decide) (by decide) (by decide)
theorem camel_plain {n : String} (h : CamelName n) : Plain n := ident_plain h (by decide) (by decide) (by decide) (by decide)
theorem upper_plain {n : String} (h : UpperName n) : Plain n := ident_plain h (by decide) (by decide) (by decide) (by decide)

theorem defName_plain {d : Ast.Definition} (h : DefWf d) {n : String} (hn : defName d = some n) : Plain n := by
  cases d <;> rw [DefWf] at h <;> simp only [defName, Option.some.injEq, reduceCtorEq] at hn
  · subst hn; exact snake_plain h.2.1
  · subst hn; exact camel_plain h.2.2.1
  · subst hn; exact camel_plain h.2.2.1
  · subst hn; exact camel_plain h.2.1
  · subst hn; exact upper_plain h.2.1

theorem slash_file {a b : Text} {n : String} (ha : '/' ∉ a) (hb : '/' ∉ b) (h : Plain n) : '/' ∉ a ++ n.toList ++ b := by
  simp only [List.mem_append, not_or]
  exact ⟨⟨ha, h.1⟩, hb⟩

/-! ### Pages of definitions -/

variable (std : Std) (checked : Bool)

/-- The page of a definition; `path` is the stem and the names of the enclosing modules. -/
def pageOf (path : List String) : Definition → Option Page
  | .module c n ds => some (modulePage (path ++ [n]) c n ds)
  | .struct s => some (structPage checked path s)
  | .enum e => some (enumPage path e)
  | .typeAlias a => some (aliasPage path a)
  | .const c => some (constPage std path c)
  | .import _ _ => none

/-- The files written for a definition. -/
def filesOf (parent : List Text) (path : List String) (e : Definition) : List (List Text × Page) :=
  match renderDefinition std checked path e with
  | none => []
  | some o => writeOutput parent o

/-- The files written for definitions. -/
def filesOfAll (parent : List Text) (path : List String) (es : List Definition) : List (List Text × Page) :=
  writeOutputs parent (renderDefinitions std checked path es)

theorem filesOfAll_nil (parent : List Text) (path : List String) : filesOfAll std checked parent path [] = [] := rfl

theorem filesOfAll_cons (parent : List Text) (path : List String) (e : Definition) (es : List Definition) :
    filesOfAll std checked parent path (e :: es) =
      filesOf std checked parent path e ++ filesOfAll std checked parent path es := by
  unfold filesOfAll filesOf
  rw [renderDefinitions]
  cases renderDefinition std checked path e with
  | none => rfl
  | some o => rw [writeOutputs]

theorem mem_filesOfAll {parent : List Text} {path : List String} {es : List Definition} {x : List Text × Page} :
    x ∈ filesOfAll std checked parent path es ↔ ∃ e ∈ es, x ∈ filesOf std checked parent path e := by
  induction es with
  | nil => simp [filesOfAll_nil]
  | cons e es ih => rw [filesOfAll_cons, List.mem_append, ih]; simp

/-- The definitions of a module, simplified. -/
theorem simplifyDefinitions_mem {ds : List Ast.Definition} : ∀ {es : List Definition},
    simplifyDefinitions checked ds = some es →
    (∀ d ∈ ds, ∃ e ∈ es, simplifyDefinition checked d = some e) ∧
    (∀ e ∈ es, ∃ d ∈ ds, simplifyDefinition checked d = some e) := by
  induction ds with
  | nil => intro es h; injection h with h; subst h; exact ⟨fun d hd => (by cases hd), fun e he => (by cases he)⟩
  | cons d ds ih =>
    intro es h
    rw [simplifyDefinitions] at h
    cases hd : simplifyDefinition checked d with
    | none => simp [hd] at h
    | some e =>
      cases hr : simplifyDefinitions checked ds with
      | none => simp [hd, hr] at h
      | some rest =>
        simp only [hd, hr, Option.bind_eq_bind, Option.bind_some, Option.pure_def, Option.some.injEq] at h
        subst h
        have ⟨h1, h2⟩ := ih hr
        refine ⟨fun x hx => ?_, fun y hy => ?_⟩
        · rcases List.mem_cons.1 hx with rfl | hx
          · exact ⟨e, by simp, hd⟩
          · obtain ⟨y, hy, e⟩ := h1 x hx; exact ⟨y, List.mem_cons_of_mem _ hy, e⟩
        · rcases List.mem_cons.1 hy with rfl | hy
          · exact ⟨d, by simp, hd⟩
          · obtain ⟨x, hx, e⟩ := h2 y hy; exact ⟨x, List.mem_cons_of_mem _ hx, e⟩

theorem simplify_module {c : List String} {n : String} {ds : List Ast.Definition} {e : Definition}
    (h : simplifyDefinition checked (.module c n ds) = some e) :
    ∃ es, simplifyDefinitions checked ds = some es ∧ e = .module c n es := by
  rw [simplifyDefinition] at h
  cases hr : simplifyDefinitions checked ds with
  | none => simp [hr] at h
  | some es =>
    simp only [hr, Option.bind_eq_bind, Option.bind_some, Option.pure_def, Option.some.injEq] at h
    exact ⟨es, rfl, h.symm⟩

/-- The files of a module: its page and those of its definitions. -/
theorem filesOf_module {parent : List Text} {path : List String} {c : List String} {n : String} {es : List Definition}
    (h : Plain n) : filesOf std checked parent path (.module c n es) =
      (parent ++ [n.toList, "index.html".toList], modulePage (path ++ [n]) c n es) ::
        filesOfAll std checked (parent ++ [n.toList]) (path ++ [n]) es := by
  unfold filesOf filesOfAll
  rw [renderDefinition]
  simp only [writeOutput, join, components_index h.1, components_none h.1]

/-- The only file of a definition that is no module. -/
theorem filesOf_item {parent : List Text} {path : List String} {d : Ast.Definition} {e : Definition}
    (hd : DefWf d) (he : simplifyDefinition checked d = some e) (hm : ∀ c n ds, d ≠ .module c n ds) :
    (pageFile d = none ∧ filesOf std checked parent path e = []) ∨
    ∃ w pg, pageFile d = some [w] ∧ pageOf std checked path e = some pg ∧
      filesOf std checked parent path e = [(parent ++ [w], pg)] := by
  have hp := fun n hn => defName_plain hd (n := n) hn
  have hh : '/' ∉ ".html".toList := by decide
  cases d with
  | module c n ds => exact absurd rfl (hm c n ds)
  | struct s =>
    rw [simplifyDefinition] at he
    cases h : simplifyFields checked s.fields with
    | none => simp [h] at he
    | some fs =>
      simp only [h, Option.bind_eq_bind, Option.bind_some, Option.pure_def, Option.some.injEq] at he
      subst he
      refine .inr ⟨_, _, rfl, rfl, ?_⟩
      unfold filesOf
      rw [renderDefinition]
      simp only [writeOutput, join, writeOutputs]
      rw [components_none (slash_file (by decide) hh (hp _ rfl))]
  | enum en =>
    rw [simplifyDefinition] at he
    cases h : simplifyVariants checked Compiler.idStart en.variants with
    | none => simp [h] at he
    | some vs =>
      simp only [h, Option.bind_eq_bind, Option.bind_some, Option.pure_def, Option.some.injEq] at he
      subst he
      refine .inr ⟨_, _, rfl, rfl, ?_⟩
      unfold filesOf
      rw [renderDefinition]
      simp only [writeOutput, join, writeOutputs]
      rw [components_none (slash_file (by decide) hh (hp _ rfl))]
  | typeAlias al =>
    injection he with he; subst he
    refine .inr ⟨_, _, rfl, rfl, ?_⟩
    unfold filesOf
    rw [renderDefinition]
    simp only [writeOutput, join, writeOutputs]
    rw [components_none (slash_file (by decide) hh (hp _ rfl))]
  | const k =>
    injection he with he; subst he
    refine .inr ⟨_, _, rfl, rfl, ?_⟩
    unfold filesOf
    rw [renderDefinition]
    simp only [writeOutput, join, writeOutputs]
    rw [components_none (slash_file (by decide) hh (hp _ rfl))]
  | «import» i =>
    injection he with he; subst he
    exact .inl ⟨rfl, rfl⟩

theorem defsWf_mem {ds : List Ast.Definition} (h : DefsWf ds) : ∀ d ∈ ds, DefWf d := by
  induction ds with
  | nil => intro d hd; cases hd
  | cons x xs ih =>
    rw [DefsWf] at h
    intro d hd
    rcases List.mem_cons.1 hd with rfl | hd
    · exact h.1
    · exact ih h.2 d hd

theorem pageFile_module {c : List String} {n : String} {ds : List Ast.Definition} :
    pageFile (.module c n ds) = some [n.toList, "index.html".toList] := rfl

theorem docDir_snoc (out : List Text) (stem : String) (mods : List String) (n : String) :
    docDir out stem (mods ++ [n]) = docDir out stem mods ++ [n.toList] := by
  simp [docDir]

section
variable {std checked}
variable {s : Ast.Schema} {t : Schema} {stem : String} {out : List Text}

/-- The page of a definition is among the files of its module. -/
theorem page_mem {parent : List Text} {path : List String} {ds : List Ast.Definition} {es : List Definition}
    (hs : simplifyDefinitions checked ds = some es) (hw : DefsWf ds) {d : Ast.Definition} (hd : d ∈ ds)
    {f : List Text} (hf : pageFile d = some f) :
    ∃ e pg, simplifyDefinition checked d = some e ∧ pageOf std checked path e = some pg ∧
      (parent ++ f, pg) ∈ filesOfAll std checked parent path es := by
  obtain ⟨e, hem, he⟩ := (simplifyDefinitions_mem checked hs).1 d hd
  have hwd := defsWf_mem hw d hd
  by_cases hm : ∃ c n ds', d = .module c n ds'
  · obtain ⟨c, n, ds', rfl⟩ := hm
    obtain ⟨es', h1, rfl⟩ := simplify_module checked he
    injection hf with hf; subst hf
    rw [DefWf] at hwd
    refine ⟨_, _, he, rfl, (mem_filesOfAll std checked).2 ⟨_, hem, ?_⟩⟩
    rw [filesOf_module std checked (snake_plain hwd.2.1)]
    exact List.mem_cons_self ..
  · rcases filesOf_item std checked (parent := parent) (path := path) hwd he (fun c n ds' h => hm ⟨c, n, ds', h⟩) with
      ⟨h, _⟩ | ⟨w, pg, h1, h2, h3⟩
    · rw [h] at hf; cases hf
    · rw [h1] at hf; injection hf with hf; subst hf
      exact ⟨e, pg, he, h2, (mem_filesOfAll std checked).2 ⟨e, hem, by rw [h3]; simp⟩⟩

/-- The files of a module are among those of the schema. -/
theorem module_files (ht : simplifySchema checked s = some t) (hw : DefsWf s.definitions) (hstem : '/' ∉ stem.toList)
    {mods : List String} {ds : List Ast.Definition} (h : ModuleAt s mods ds) :
    DefsWf ds ∧ ∃ es, simplifyDefinitions checked ds = some es ∧
      ∀ x ∈ filesOfAll std checked (docDir out stem mods) (stem :: mods) es, x ∈ docSchema std checked out stem t := by
  induction h with
  | root =>
    refine ⟨hw, ?_⟩
    unfold simplifySchema at ht
    cases h : simplifyDefinitions checked s.definitions with
    | none => simp [h] at ht
    | some es =>
      simp only [h, Option.bind_eq_bind, Option.bind_some, Option.pure_def, Option.some.injEq] at ht
      subst ht
      refine ⟨es, rfl, fun x hx => ?_⟩
      unfold docSchema renderSchema
      rw [writeOutput]
      refine List.mem_cons_of_mem _ ?_
      simp only [join, components_none hstem]
      unfold filesOfAll docDir at hx
      simpa using hx
  | @module mods ds ds' c n h hm ih =>
    obtain ⟨hwd, es, hs, hsub⟩ := ih
    have hwm := defsWf_mem hwd _ hm
    obtain ⟨e, hem, he⟩ := (simplifyDefinitions_mem checked hs).1 _ hm
    obtain ⟨es', h1, rfl⟩ := simplify_module checked he
    rw [DefWf] at hwm
    refine ⟨hwm.2.2, es', h1, fun x hx => hsub x ((mem_filesOfAll std checked).2 ⟨_, hem, ?_⟩)⟩
    rw [filesOf_module std checked (snake_plain hwm.2.1)]
    refine List.mem_cons_of_mem _ ?_
    rw [docDir_snoc] at hx
    exact hx

/-- Every definition has its page. -/
theorem page_exists (ht : simplifySchema checked s = some t) (hw : DefsWf s.definitions) (hstem : '/' ∉ stem.toList)
    {mods : List String} {ds : List Ast.Definition} (h : ModuleAt s mods ds) {d : Ast.Definition} (hd : d ∈ ds)
    {f : List Text} (hf : pageFile d = some f) :
    ∃ e pg, simplifyDefinition checked d = some e ∧ pageOf std checked (stem :: mods) e = some pg ∧
      (docDir out stem mods ++ f, pg) ∈ docSchema std checked out stem t := by
  obtain ⟨hwd, es, hs, hsub⟩ := module_files (std := std) (out := out) ht hw hstem h
  obtain ⟨e, pg, he, hp, hm⟩ := page_mem (std := std) (parent := docDir out stem mods) (path := stem :: mods) hs hwd hd hf
  exact ⟨e, pg, he, hp, hsub _ hm⟩

/-- The page of the schema itself. -/
theorem index_exists (hstem : '/' ∉ stem.toList) : (docDir out stem [] ++ ["index.html".toList],
    indexPage [stem] t.comment stem t.definitions) ∈ docSchema std checked out stem t := by
  unfold docSchema renderSchema
  rw [writeOutput]
  simp only [join, components_none hstem, components_index hstem]
  simp [docDir]

/-- What a written file is. -/
def Known (std : Std) (checked : Bool) (s : Ast.Schema) (stem : String) (out : List Text) (x : List Text × Page) : Prop :=
  ∃ mods ds d f e pg, ModuleAt s mods ds ∧ d ∈ ds ∧ pageFile d = some f ∧ simplifyDefinition checked d = some e ∧
    pageOf std checked (stem :: mods) e = some pg ∧ x = (docDir out stem mods ++ f, pg)

mutual
theorem files_known : ∀ (d : Ast.Definition) (mods : List String) (ds : List Ast.Definition), ModuleAt s mods ds → d ∈ ds →
    DefWf d → ∀ e, simplifyDefinition checked d = some e →
    ∀ x ∈ filesOf std checked (docDir out stem mods) (stem :: mods) e, Known std checked s stem out x
  | .module c n ds', mods, ds, h, hd, hw, e, he, x, hx => by
    obtain ⟨es', h1, rfl⟩ := simplify_module checked he
    rw [DefWf] at hw
    rw [filesOf_module std checked (snake_plain hw.2.1)] at hx
    rcases List.mem_cons.1 hx with rfl | hx
    · exact ⟨mods, ds, _, _, _, _, h, hd, rfl, he, rfl, rfl⟩
    · rw [← docDir_snoc] at hx
      exact filesAll_known ds' (mods ++ [n]) ds' (.module h hd) (fun _ hm => hm) hw.2.2 es' h1 x hx
  | .struct st, mods, ds, h, hd, hw, e, he, x, hx => by
    rcases filesOf_item std checked (parent := docDir out stem mods) (path := stem :: mods) hw he (by intros; simp) with
      ⟨_, h0⟩ | ⟨w, pg, h1, h2, h3⟩
    · rw [h0] at hx; cases hx
    · rw [h3] at hx; rw [List.mem_singleton.1 hx]; exact ⟨mods, ds, _, _, _, _, h, hd, h1, he, h2, rfl⟩
  | .enum en, mods, ds, h, hd, hw, e, he, x, hx => by
    rcases filesOf_item std checked (parent := docDir out stem mods) (path := stem :: mods) hw he (by intros; simp) with
      ⟨_, h0⟩ | ⟨w, pg, h1, h2, h3⟩
    · rw [h0] at hx; cases hx
    · rw [h3] at hx; rw [List.mem_singleton.1 hx]; exact ⟨mods, ds, _, _, _, _, h, hd, h1, he, h2, rfl⟩
  | .typeAlias al, mods, ds, h, hd, hw, e, he, x, hx => by
    rcases filesOf_item std checked (parent := docDir out stem mods) (path := stem :: mods) hw he (by intros; simp) with
      ⟨_, h0⟩ | ⟨w, pg, h1, h2, h3⟩
    · rw [h0] at hx; cases hx
    · rw [h3] at hx; rw [List.mem_singleton.1 hx]; exact ⟨mods, ds, _, _, _, _, h, hd, h1, he, h2, rfl⟩
  | .const k, mods, ds, h, hd, hw, e, he, x, hx => by
    rcases filesOf_item std checked (parent := docDir out stem mods) (path := stem :: mods) hw he (by intros; simp) with
      ⟨_, h0⟩ | ⟨w, pg, h1, h2, h3⟩
    · rw [h0] at hx; cases hx
    · rw [h3] at hx; rw [List.mem_singleton.1 hx]; exact ⟨mods, ds, _, _, _, _, h, hd, h1, he, h2, rfl⟩
  | .import i, mods, ds, h, hd, hw, e, he, x, hx => by
    rcases filesOf_item std checked (parent := docDir out stem mods) (path := stem :: mods) hw he (by intros; simp) with
      ⟨_, h0⟩ | ⟨w, pg, h1, h2, h3⟩
    · rw [h0] at hx; cases hx
    · rw [h3] at hx; rw [List.mem_singleton.1 hx]; exact ⟨mods, ds, _, _, _, _, h, hd, h1, he, h2, rfl⟩
theorem filesAll_known : ∀ (ds' : List Ast.Definition) (mods : List String) (ds : List Ast.Definition), ModuleAt s mods ds →
    (∀ d ∈ ds', d ∈ ds) → DefsWf ds' → ∀ es, simplifyDefinitions checked ds' = some es →
    ∀ x ∈ filesOfAll std checked (docDir out stem mods) (stem :: mods) es, Known std checked s stem out x
  | [], mods, ds, h, hd, hw, es, he, x, hx => by
    injection he with he; subst he; rw [filesOfAll_nil] at hx; cases hx
  | d :: ds', mods, ds, h, hd, hw, es, he, x, hx => by
    rw [simplifyDefinitions] at he
    rw [DefsWf] at hw
    cases h1 : simplifyDefinition checked d with
    | none => simp [h1] at he
    | some e =>
      cases hr : simplifyDefinitions checked ds' with
      | none => simp [h1, hr] at he
      | some rest =>
        simp only [h1, hr, Option.bind_eq_bind, Option.bind_some, Option.pure_def, Option.some.injEq] at he
        subst he
        rw [filesOfAll_cons] at hx
        rcases List.mem_append.1 hx with hx | hx
        · exact files_known d mods ds h (hd d (by simp)) hw.1 e h1 x hx
        · exact filesAll_known ds' mods ds h (fun y hy => hd y (List.mem_cons_of_mem _ hy)) hw.2 rest hr x hx
end

/-- Every written file is the page of the schema or of one of its definitions. -/
theorem page_known (ht : simplifySchema checked s = some t) (hw : DefsWf s.definitions) (hstem : '/' ∉ stem.toList)
    {x : List Text × Page} (hx : x ∈ docSchema std checked out stem t) :
    x = (docDir out stem [] ++ ["index.html".toList], indexPage [stem] t.comment stem t.definitions) ∨
      Known std checked s stem out x := by
  unfold simplifySchema at ht
  cases h : simplifyDefinitions checked s.definitions with
  | none => simp [h] at ht
  | some es =>
    simp only [h, Option.bind_eq_bind, Option.bind_some, Option.pure_def, Option.some.injEq] at ht
    subst ht
    unfold docSchema renderSchema at hx
    rw [writeOutput] at hx
    rcases List.mem_cons.1 hx with rfl | hx
    · left; simp only [join, components_none hstem, components_index hstem]; simp [docDir]
    · right
      refine filesAll_known s.definitions [] s.definitions .root (fun _ h => h) hw es h x ?_
      simp only [join, components_none hstem] at hx
      unfold filesOfAll docDir
      simpa using hx

/-! ### No file is written twice -/

/-- The first component of the place of a page. -/
def headOf (d : Ast.Definition) : Option Text := (pageFile d).bind List.head?

theorem headOf_inj {d d' : Ast.Definition} (hw : DefWf d) (hw' : DefWf d') {h : Text} (e : headOf d = some h)
    (e' : headOf d' = some h) : defName d = defName d' := by
  have hp := fun n hn => (defName_plain hw (n := n) hn).2
  have hp' := fun n hn => (defName_plain hw' (n := n) hn).2
  have hinj : ∀ {a b : String}, a.toList = b.toList → a = b := fun h => String.toList_inj.1 h
  have hdot : ∀ (a b : Text) (n : String), '.' ∈ a → ∀ m : String, '.' ∉ m.toList → a ++ n.toList ++ b ≠ m.toList := by
    intro a b n ha m hm he
    exact hm (he ▸ List.mem_append.2 (.inl (List.mem_append.2 (.inl ha))))
  cases d <;> cases d' <;> simp only [headOf, pageFile, Option.bind_some, List.head?_cons, Option.some.injEq,
    Option.bind_none, reduceCtorEq] at e e' <;> simp only [defName, Option.some.injEq]
  all_goals first
    | (subst e; exact hinj e'.symm)
    | (exact absurd (e'.trans e.symm) (hdot _ _ _ (by decide) _ (hp _ rfl)))
    | (exact absurd (e.trans e'.symm) (hdot _ _ _ (by decide) _ (hp' _ rfl)))
    | (subst e; simp only [List.append_assoc, List.append_cancel_left_eq, List.append_cancel_right_eq] at e'; exact hinj e'.symm)
    | (subst e; exact absurd e' (by simp))

theorem introduced_of_name {d : Ast.Definition} {n : String} (h : defName d = some n) : introduced d = [n] := by
  cases d <;> simp only [defName, Option.some.injEq, reduceCtorEq] at h <;> subst h <;> rfl

theorem defName_of_head {d : Ast.Definition} {h : Text} (e : headOf d = some h) : ∃ n, defName d = some n := by
  cases d <;> simp [headOf, pageFile] at e <;> exact ⟨_, rfl⟩

mutual
/-- Names are unique in the scopes of a definition. -/
def Uniq : Ast.Definition → Prop
  | .module _ _ ds => (ds.flatMap introduced).Nodup ∧ Uniqs ds
  | _ => True
/-- Of all of them. -/
def Uniqs : List Ast.Definition → Prop
  | [] => True
  | d :: ds => Uniq d ∧ Uniqs ds
end

mutual
theorem uniq_of_scopes (h : ∀ ds, Scope s ds → (ds.flatMap introduced).Nodup) :
    ∀ (d : Ast.Definition) (ds : List Ast.Definition), Scope s ds → d ∈ ds → Uniq d
  | .module c n ds', ds, hs, hd => by
    rw [Uniq]
    have hs' := Scope.module hs hd
    exact ⟨h ds' hs', uniqs_of_scopes h ds' ds' hs' (fun _ h => h)⟩
  | .struct _, _, _, _ => by rw [Uniq]; trivial; simp
  | .enum _, _, _, _ => by rw [Uniq]; trivial; simp
  | .typeAlias _, _, _, _ => by rw [Uniq]; trivial; simp
  | .const _, _, _, _ => by rw [Uniq]; trivial; simp
  | .import _, _, _, _ => by rw [Uniq]; trivial; simp
theorem uniqs_of_scopes (h : ∀ ds, Scope s ds → (ds.flatMap introduced).Nodup) :
    ∀ (ds' ds : List Ast.Definition), Scope s ds → (∀ d ∈ ds', d ∈ ds) → Uniqs ds'
  | [], _, _, _ => by rw [Uniqs]; trivial
  | d :: ds', ds, hs, hd => by
    rw [Uniqs]
    exact ⟨uniq_of_scopes h d ds hs (hd d (by simp)),
      uniqs_of_scopes h ds' ds hs (fun x hx => hd x (List.mem_cons_of_mem _ hx))⟩
end

theorem head_index {d : Ast.Definition} (hw : DefWf d) : headOf d ≠ some "index.html".toList := by
  intro e
  have hp := fun n hn => (defName_plain hw (n := n) hn).2
  cases d <;> simp only [headOf, pageFile, Option.bind_some, List.head?_cons, Option.some.injEq,
    Option.bind_none, reduceCtorEq] at e
  · exact hp _ rfl (by rw [e]; decide)
  all_goals exact absurd e (by simp)

mutual
theorem files_nodup : ∀ (d : Ast.Definition) (parent : List Text) (path : List String) (e : Definition),
    DefWf d → Uniq d → simplifyDefinition checked d = some e →
    ((filesOf std checked parent path e).map Prod.fst).Nodup ∧
    ∀ p ∈ (filesOf std checked parent path e).map Prod.fst, ∃ h rest, headOf d = some h ∧ p = parent ++ h :: rest
  | .module c n ds', parent, path, e, hw, hu, he => by
    obtain ⟨es', h1, rfl⟩ := simplify_module checked he
    rw [DefWf] at hw
    rw [Uniq] at hu
    obtain ⟨hn, hh⟩ := filesAll_nodup ds' (parent ++ [n.toList]) (path ++ [n]) es' hw.2.2 hu.2 hu.1 h1
    rw [filesOf_module std checked (snake_plain hw.2.1)]
    rw [List.map_cons]
    refine ⟨List.nodup_cons.2 ⟨fun hm => ?_, hn⟩, fun p hp => ?_⟩
    · obtain ⟨d, hd, h, rest, e1, e2⟩ := hh _ hm
      rw [List.append_assoc, List.append_cancel_left_eq] at e2
      simp only [List.cons_append, List.nil_append, List.cons.injEq, true_and] at e2
      exact head_index (defsWf_mem hw.2.2 d hd) (by rw [e1, e2.1])
    · rcases List.mem_cons.1 hp with rfl | hp
      · exact ⟨_, _, rfl, rfl⟩
      · obtain ⟨d, hd, h, rest, e1, e2⟩ := hh _ hp
        exact ⟨n.toList, h :: rest, rfl, by rw [e2]; simp⟩
  | .struct st, parent, path, e, hw, _, he => by
    rcases filesOf_item std checked (parent := parent) (path := path) hw he (by intros; simp) with ⟨_, h0⟩ | ⟨w, pg, h1, h2, h3⟩
    · rw [h0]; exact ⟨List.nodup_nil, fun p hp => by cases hp⟩
    · rw [h3]
      exact ⟨by simp, fun p hp => ⟨w, [], by rw [headOf, h1]; rfl, by simpa using hp⟩⟩
  | .enum st, parent, path, e, hw, _, he => by
    rcases filesOf_item std checked (parent := parent) (path := path) hw he (by intros; simp) with ⟨_, h0⟩ | ⟨w, pg, h1, h2, h3⟩
    · rw [h0]; exact ⟨List.nodup_nil, fun p hp => by cases hp⟩
    · rw [h3]
      exact ⟨by simp, fun p hp => ⟨w, [], by rw [headOf, h1]; rfl, by simpa using hp⟩⟩
  | .typeAlias st, parent, path, e, hw, _, he => by
    rcases filesOf_item std checked (parent := parent) (path := path) hw he (by intros; simp) with ⟨_, h0⟩ | ⟨w, pg, h1, h2, h3⟩
    · rw [h0]; exact ⟨List.nodup_nil, fun p hp => by cases hp⟩
    · rw [h3]
      exact ⟨by simp, fun p hp => ⟨w, [], by rw [headOf, h1]; rfl, by simpa using hp⟩⟩
  | .const st, parent, path, e, hw, _, he => by
    rcases filesOf_item std checked (parent := parent) (path := path) hw he (by intros; simp) with ⟨_, h0⟩ | ⟨w, pg, h1, h2, h3⟩
    · rw [h0]; exact ⟨List.nodup_nil, fun p hp => by cases hp⟩
    · rw [h3]
      exact ⟨by simp, fun p hp => ⟨w, [], by rw [headOf, h1]; rfl, by simpa using hp⟩⟩
  | .import st, parent, path, e, hw, _, he => by
    rcases filesOf_item std checked (parent := parent) (path := path) hw he (by intros; simp) with ⟨_, h0⟩ | ⟨w, pg, h1, h2, h3⟩
    · rw [h0]; exact ⟨List.nodup_nil, fun p hp => by cases hp⟩
    · rw [h3]
      exact ⟨by simp, fun p hp => ⟨w, [], by rw [headOf, h1]; rfl, by simpa using hp⟩⟩
theorem filesAll_nodup : ∀ (ds : List Ast.Definition) (parent : List Text) (path : List String) (es : List Definition),
    DefsWf ds → Uniqs ds → (ds.flatMap introduced).Nodup → simplifyDefinitions checked ds = some es →
    ((filesOfAll std checked parent path es).map Prod.fst).Nodup ∧
    ∀ p ∈ (filesOfAll std checked parent path es).map Prod.fst, ∃ d ∈ ds, ∃ h rest, headOf d = some h ∧ p = parent ++ h :: rest
  | [], parent, path, es, _, _, _, he => by
    injection he with he; subst he; rw [filesOfAll_nil]; exact ⟨List.nodup_nil, fun p hp => by cases hp⟩
  | d :: ds, parent, path, es, hw, hu, hn, he => by
    rw [simplifyDefinitions] at he
    rw [DefsWf] at hw
    rw [Uniqs] at hu
    rw [List.flatMap_cons, List.nodup_append] at hn
    cases h1 : simplifyDefinition checked d with
    | none => simp [h1] at he
    | some e =>
      cases hr : simplifyDefinitions checked ds with
      | none => simp [h1, hr] at he
      | some rest =>
        simp only [h1, hr, Option.bind_eq_bind, Option.bind_some, Option.pure_def, Option.some.injEq] at he
        subst he
        obtain ⟨n1, k1⟩ := files_nodup d parent path e hw.1 hu.1 h1
        obtain ⟨n2, k2⟩ := filesAll_nodup ds parent path rest hw.2 hu.2 hn.2.1 hr
        rw [filesOfAll_cons, List.map_append]
        refine ⟨List.nodup_append.2 ⟨n1, n2, ?_⟩, fun p hp => ?_⟩
        · intro a ha b hb hab
          subst hab
          obtain ⟨h, r, e1, e2⟩ := k1 a ha
          obtain ⟨d', hd', h', r', e1', e2'⟩ := k2 a hb
          rw [e2, List.append_cancel_left_eq] at e2'
          injection e2' with hh _
          subst hh
          obtain ⟨nm, hnm⟩ := defName_of_head e1
          have hnm' : defName d' = some nm := (headOf_inj hw.1 (defsWf_mem hw.2 d' hd') e1 e1') ▸ hnm
          refine hn.2.2 nm (by rw [introduced_of_name hnm]; simp) nm (List.mem_flatMap.2 ⟨d', hd', ?_⟩) rfl
          rw [introduced_of_name hnm']; simp
        · rcases List.mem_append.1 hp with hp | hp
          · obtain ⟨h, r, e1, e2⟩ := k1 p hp; exact ⟨d, by simp, h, r, e1, e2⟩
          · obtain ⟨d', hd', x⟩ := k2 p hp; exact ⟨d', List.mem_cons_of_mem _ hd', x⟩
end

theorem docSchema_nodup (ht : simplifySchema checked s = some t) (hw : DefsWf s.definitions) (hstem : '/' ∉ stem.toList)
    (hn : ∀ ds, Scope s ds → (ds.flatMap introduced).Nodup) : ((docSchema std checked out stem t).map Prod.fst).Nodup := by
  unfold simplifySchema at ht
  cases h : simplifyDefinitions checked s.definitions with
  | none => simp [h] at ht
  | some es =>
    simp only [h, Option.bind_eq_bind, Option.bind_some, Option.pure_def, Option.some.injEq] at ht
    subst ht
    obtain ⟨n1, k1⟩ := filesAll_nodup (std := std) s.definitions (out ++ [stem.toList] ++ [stem.toList]) [stem] es hw
      (uniqs_of_scopes hn _ _ .root (fun _ h => h)) (hn _ .root) h
    unfold docSchema renderSchema
    rw [writeOutput]
    simp only [join, components_none hstem, components_index hstem, List.map_cons]
    refine List.nodup_cons.2 ⟨fun hm => ?_, n1⟩
    obtain ⟨d, hd, h', r, e1, e2⟩ := k1 _ hm
    rw [List.append_assoc (out ++ [stem.toList]), List.append_cancel_left_eq] at e2
    simp only [List.cons_append, List.nil_append, List.cons.injEq, true_and] at e2
    exact head_index (defsWf_mem hw d hd) (by rw [e1, e2.1])

end

end Mabo.Doc
