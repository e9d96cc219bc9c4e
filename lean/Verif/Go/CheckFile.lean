import Verif.Go.Check
import Verif.Go.Shape
/-! Valid files. -/
namespace Mabo.Go
open Mabo.Simplify Mabo.Spec Mabo.Spec.GoRules Mabo.Spec.GoBuild
open Mabo.Ast (DataType)
open Mabo.Parse (Text)

theorem stmts_mem {ds : List Decl} {k : Nat} : ∀ {ss : List Stmt} {Γ : GoRules.Scope}, stmtsProblems ds Γ k ss = [] →
    ∀ s ∈ ss, ∃ Γ', Ext Γ Γ' ∧ stmtProblems ds Γ' k s = []
  | [], Γ, h, s, hs => by cases hs
  | a :: as, Γ, h, s, hs => by
    simp only [stmtsProblems, List.append_eq_nil_iff] at h
    rcases List.mem_cons.1 hs with rfl | hs
    · exact ⟨Γ, Ext.refl Γ, h.1⟩
    · obtain ⟨Γ', he, h'⟩ := stmts_mem h.2 s hs
      exact ⟨Γ', (ext_behind a Γ).trans he, h'⟩

/-- The files of the generator without violations. -/
structure Valid (es : List Definition) (f : File) : Prop where
  decls : declsOf es = some f.decls
  imports : f.imports = importTree
  valid : problems f = []

theorem Valid.decl {es : List Definition} {f : File} (h : Valid es f) {d : Decl} (hd : d ∈ f.decls) :
    declProblems f.decls (fileScope f) d = [] := by
  have := h.valid
  simp only [problems, List.append_eq_nil_iff, List.flatMap_eq_nil_iff] at this
  exact this.2 d hd

theorem namesOk_nil {xs : List Text} : namesOk xs = [] ↔ xs.Nodup ∧ ∀ x ∈ xs, x ∉ keywords := by
  simp [namesOk, demand_nil, List.flatMap_eq_nil_iff]

theorem Valid.names {es : List Definition} {f : File} (h : Valid es f) : (fileNames f).Nodup := by
  have := h.valid
  simp only [problems, List.append_eq_nil_iff] at this
  exact (namesOk_nil.1 this.1.1.2).1

theorem Valid.field {es : List Definition} {f : File} (h : Valid es f) {ret : String} {name : Text} {gs : List Text} {fs : Fields}
    (hi : ItemOf es ret name gs fs) {fld : Field} (hf : fld ∈ fs.fields) :
    ∃ g, defTree fld.ty = some g ∧ tyProblems (bindTypes gs (fileScope f)) g = [] := by
  obtain ⟨c, b, hb, hm⟩ := (item_parts h.decls hi).type
  simp only [structTree, Option.bind_eq_bind, Option.bind_eq_some_iff, Option.pure_def, Option.some.injEq] at hb
  obtain ⟨gfs, hg, rfl⟩ := hb
  have := h.decl hm
  simp only [declProblems, List.append_eq_nil_iff, tysProblems_nil, List.mem_map] at this
  obtain ⟨gf, hgf, he⟩ := (allOf_mem hg).1 fld hf
  simp only [Option.bind_eq_some_iff, Option.some.injEq] at he
  obtain ⟨g, hd, rfl⟩ := he
  exact ⟨g, hd, this.2 g ⟨_, hgf, rfl⟩⟩

theorem Valid.alias {es : List Definition} {f : File} (h : Valid es f) {a : TypeAlias} (ha : Definition.typeAlias a ∈ es) :
    ∃ g, defTree a.target = some g ∧ tyProblems (bindTypes [] (fileScope f)) g = [] := by
  obtain ⟨here, h1, h2⟩ := declsOf_one h.decls ha
  simp only [declsOne, aliasDecls, Option.bind_eq_bind, Option.bind_eq_some_iff, Option.pure_def, Option.some.injEq] at h1
  obtain ⟨t, ht, rfl⟩ := h1
  have := h.decl (h2 _ (List.mem_cons_self))
  simp only [declProblems, List.append_eq_nil_iff] at this
  exact ⟨t, ht, this.2⟩

theorem Valid.const {es : List Definition} {f : File} (h : Valid es f) {c : Const} (hc : Definition.const c ∈ es) :
    ∃ g, constTree c.ty = some g ∧ tyProblems (bindTypes [] (fileScope f)) g = [] ∧ valueOk g c.value = true := by
  obtain ⟨here, h1, h2⟩ := declsOf_one h.decls hc
  simp only [declsOne, constDecls, Option.bind_eq_bind, Option.bind_eq_some_iff, Option.pure_def, Option.some.injEq] at h1
  obtain ⟨t, ht, rfl⟩ := h1
  have := h.decl (h2 _ (List.mem_cons_self))
  simp only [declProblems, List.append_eq_nil_iff, demand_nil] at this
  exact ⟨t, ht, this.1, this.2⟩

/-- What is measured for a field. -/
theorem Valid.size {es : List Definition} {f : File} (h : Valid es f) {ret : String} {name : Text} {gs : List Text} {fs : Fields}
    (hi : ItemOf es ret name gs fs) (hu : fs.kind ≠ .unit) {fld : Field} (hf : fld ∈ fs.fields) :
    ∃ u e x Γ, (fld.ty = .option u ∨ (fld.ty = u ∧ ∀ v, u ≠ .option v)) ∧ sizeTree e u = some x ∧ exprProblems f.decls Γ x = [] := by
  obtain ⟨ls, hl, hm⟩ := (item_parts h.decls hi).size
  simp only [sizeMethodTree, Option.bind_eq_bind, Option.bind_eq_some_iff, Option.pure_def, Option.some.injEq] at hl
  obtain ⟨b, hb, rfl⟩ := hl
  rw [sizeFieldsTree, if_neg hu] at hb
  simp only [Option.bind_eq_bind, Option.bind_eq_some_iff, Option.pure_def, Option.some.injEq] at hb
  obtain ⟨ss, hs, rfl⟩ := hb
  have hd := h.decl (hm _ (List.mem_cons_of_mem _ (List.mem_cons_of_mem _ List.mem_cons_self)))
  simp only [declProblems, List.append_eq_nil_iff] at hd
  obtain ⟨st, hst, hfld⟩ := (allOf_mem hs).1 fld hf
  obtain ⟨Γ', _, hp⟩ := stmts_mem hd.2 st (by simp [hst])
  have plain : sizePlainTree fld = some st → (∀ v, fld.ty ≠ .option v) →
      ∃ u e x Γ, (fld.ty = .option u ∨ (fld.ty = u ∧ ∀ v, u ≠ .option v)) ∧ sizeTree e u = some x ∧ exprProblems f.decls Γ x = [] := by
    intro h1 h2
    simp only [sizePlainTree, Option.bind_eq_bind, Option.bind_eq_some_iff, Option.pure_def, Option.some.injEq] at h1
    obtain ⟨x, hx, rfl⟩ := h1
    simp only [stmtProblems, exprProblems, exprsProblems, returns, stmtsProblems, List.append_eq_nil_iff] at hp
    exact ⟨fld.ty, _, x, _, .inr ⟨rfl, h2⟩, hx, hp.2.1.2.2.1.2.1.1.1⟩
  cases ht : fld.ty with
  | option t =>
    rw [sizeFieldTree.eq_def, ht] at hfld
    simp only [Option.bind_eq_bind, Option.bind_eq_some_iff, Option.pure_def, Option.some.injEq] at hfld
    obtain ⟨g, hg, x, hx, rfl⟩ := hfld
    simp only [stmtProblems, exprProblems, exprsProblems, returns, stmtsProblems, List.append_eq_nil_iff] at hp
    exact ⟨t, _, x, _, .inl rfl, hx, hp.2.1.2.2.2.1.2.1.1.1⟩
  | _ =>
    have e2 : sizeFieldTree fld = sizePlainTree fld := by rw [sizeFieldTree.eq_def, sizePlainTree, ht]
    rw [← ht]
    exact plain (e2 ▸ hfld) (by rw [ht]; simp)

/-- What is read for a field. -/
theorem Valid.dec {es : List Definition} {f : File} (h : Valid es f) {ret : String} {name : Text} {gs : List Text} {fs : Fields}
    (hi : ItemOf es ret name gs fs) {fld : Field} (hf : fld ∈ fs.fields) :
    ∃ x Γ, Ext (bindTypes gs (fileScope f)) Γ ∧ decTree fld.ty = some x ∧ exprProblems f.decls Γ x = [] := by
  obtain ⟨ls, hl, hm⟩ := (item_parts h.decls hi).dec
  simp only [decMethodTree, Option.bind_eq_bind, Option.bind_eq_some_iff, Option.pure_def, Option.some.injEq] at hl
  obtain ⟨b, hb, rfl⟩ := hl
  simp only [decBodyTree, Option.bind_eq_bind, Option.bind_eq_some_iff, Option.pure_def, Option.some.injEq] at hb
  obtain ⟨ss, hs, rfl⟩ := hb
  have hd := h.decl (hm _ (List.mem_cons_of_mem _ (List.mem_cons_of_mem _ List.mem_cons_self)))
  simp only [declProblems, List.append_eq_nil_iff] at hd
  obtain ⟨st, hst, hfld⟩ := (allOf_mem hs).1 fld hf
  obtain ⟨Γ1, he1, hp1⟩ := stmts_mem hd.2 (decLoopTree ss) (by simp)
  simp only [decLoopTree, stmtProblems, List.append_eq_nil_iff] at hp1
  obtain ⟨Γ2, he2, hp2⟩ := stmts_mem hp1.2 (.switch (var "id") (ss ++ [.case (buf (n "EndMarker")) [.brk]])) (by simp)
  simp only [stmtProblems, List.append_eq_nil_iff] at hp2
  obtain ⟨Γ3, he3, hp3⟩ := stmts_mem hp2.2 st (by simp [hst])
  simp only [decFieldTree, Option.bind_eq_bind, Option.bind_eq_some_iff, Option.pure_def, Option.some.injEq] at hfld
  obtain ⟨x, hx, rfl⟩ := hfld
  simp only [stmtProblems, stmtsProblems, List.append_eq_nil_iff] at hp3
  exact ⟨x, Γ3, (((ext_bind _ _).trans he1).trans he2).trans he3, hx, hp3.2.1⟩

/-! ### References -/

theorem toUpper_not_lower (c : Char) : c.toUpper.isLower = false := by
  unfold Char.toUpper Char.isLower
  split
  · rename_i h
    simp only [ge_iff_le, Bool.and_eq_false_iff, decide_eq_false_iff_not]
    left
    simp only [UInt32.le_iff_toNat_le] at h ⊢
    simp only [UInt32.toNat_add, UInt32.toNat_sub] 
    have h1 : ('a' : Char).val.toNat = 97 := rfl
    have h2 : ('z' : Char).val.toNat = 122 := rfl
    have h3 : ('A' : Char).val.toNat = 65 := rfl
    omega
  · rename_i h
    simp only [Bool.and_eq_false_iff, decide_eq_false_iff_not]
    rcases Decidable.em (c.val ≥ 'a'.val) with h1 | h1
    · exact .inr fun h2 => h ⟨h1, h2⟩
    · exact .inl h1

/-- Nothing in camel case starts with a small letter. -/
theorem flatten_head {ws : List Text} (h : ∀ w ∈ ws, ∀ c cs, w = c :: cs → c.isLower = false) :
    ∀ c cs, ws.flatten = c :: cs → c.isLower = false := by
  induction ws with
  | nil => intro c cs h; cases h
  | cons w ws ih =>
    intro c cs hc
    cases w with
    | nil => exact ih (fun w hw => h w (List.mem_cons_of_mem _ hw)) c cs (by simpa using hc)
    | cons d w =>
      simp only [List.flatten_cons, List.cons_append, List.cons.injEq] at hc
      exact hc.1 ▸ h (d :: w) List.mem_cons_self d w rfl

theorem upperCamel_head (s : Text) : ∀ c cs, upperCamel s = c :: cs → c.isLower = false := by
  apply flatten_head
  intro w hw c cs h
  simp only [List.mem_map] at hw
  obtain ⟨w', _, rfl⟩ := hw
  cases w' with
  | nil => cases h
  | cons d w' => simp only [capitalize, List.cons.injEq] at h; exact h.1 ▸ toUpper_not_lower d

theorem predeclared_lower : ∀ x ∈ predeclaredTypes, ∃ c cs, x = c :: cs ∧ c.isLower = true := by
  intro x hx
  simp only [predeclaredTypes, List.map_cons, List.map_nil, List.mem_cons, List.not_mem_nil, or_false] at hx
  rcases hx with h | h | h | h | h | h | h | h | h | h | h | h | h | h | h | h | h | h | h | h | h | h <;>
    (subst h; exact ⟨_, _, rfl, by decide⟩)

theorem upperCamel_predeclared (s : Text) : upperCamel s ∉ predeclaredTypes := by
  intro h
  obtain ⟨c, cs, h1, h2⟩ := predeclared_lower _ h
  rw [upperCamel_head s c cs h1] at h2; cases h2

theorem newTree_func {name : Text} {gs : List Text} {fs : Fields} {d : Decl} (h : newTree name gs fs = some d) :
    ∃ ps, allOf (fun f : Field => do pure (paramName f, ← defTree f.ty)) fs.fields = some ps ∧
      d = .func (n "New" ++ name) gs ps (selfType name gs)
        [.ret [.lit (selfType name gs) (fs.fields.map fun f => .entry (fieldName f) 0 (.id (paramName f)))]] := by
  simp only [newTree, Option.bind_eq_bind, Option.bind_eq_some_iff, Option.pure_def, Option.some.injEq] at h
  obtain ⟨ps, hp, rfl⟩ := h
  exact ⟨ps, hp, rfl⟩

/-- `Decode` has two results. -/
theorem decode_results {es : List Definition} {decls : List Decl} (h : declsOf es = some decls) {x : Text} {m : Member}
    (hm : m ∈ methodsOf decls x) (hn : m.name = n "Decode") : m.results = some 2 := by
  simp only [methodsOf, List.mem_filterMap] at hm
  obtain ⟨d, hd, hm⟩ := hm
  have hs := shape_of h hd
  cases hs with
  | new hi hnew => obtain ⟨ps, _, rfl⟩ := newTree_func hnew; cases hm
  | decode hi hb =>
    simp only at hm
    split at hm
    · cases hm; rfl
    · cases hm
  | encode hi hb | size hi hb | «sealed» hi => 
    simp only at hm
    split at hm
    · cases hm; exact absurd hn (by decide)
    · cases hm
  | _ => cases hm

theorem findType_mem {decls : List Decl} {x : Text} {b : TypeBody} (h : findType decls x = some b) :
    ∃ c ps, .type c x ps b ∈ decls := by
  simp only [findType] at h
  obtain ⟨d, hd, hb⟩ := List.exists_of_findSome?_eq_some h
  cases d with
  | type c y ps b' =>
    simp only at hb
    split at hb
    · rename_i he; cases hb; subst he; exact ⟨c, ps, hd⟩
    · cases hb
  | _ => cases hb

/-- What a name stands for in the end is declared somewhere. -/
theorem underlying_mem {decls : List Decl} : ∀ {k : Nat} {x : Text} {b : TypeBody}, underlying decls k x = some b →
    (∃ y c ps, Decl.type c y ps b ∈ decls) ∨ ∃ t, b = .type t
  | 0, x, b, h => by cases h
  | k + 1, x, b, h => by
    rw [underlying] at h
    split at h
    · split at h
      · cases h; exact .inr ⟨_, rfl⟩
      · exact underlying_mem h
    · cases h
    · obtain ⟨c, ps, h⟩ := findType_mem h
      exact .inl ⟨x, c, ps, h⟩

/-- The method `Decode` of a struct or variant. -/
theorem item_decode {es : List Definition} {decls : List Decl} (h : declsOf es = some decls) {ret : String} {name : Text}
    {gs : List Text} {fs : Fields} (hi : ItemOf es ret name gs fs) : ⟨n "Decode", some 2⟩ ∈ methodsOf decls name := by
  obtain ⟨ls, hl, hm⟩ := (item_parts h hi).dec
  simp only [decMethodTree, Option.bind_eq_bind, Option.bind_eq_some_iff, Option.pure_def, Option.some.injEq] at hl
  obtain ⟨b, hb, rfl⟩ := hl
  simp only [methodsOf, List.mem_filterMap]
  exact ⟨_, hm _ (List.mem_cons_of_mem _ (List.mem_cons_of_mem _ List.mem_cons_self)), by simp⟩

/-- The structs of a valid file have no field `Decode`. -/
theorem Valid.no_decode {es : List Definition} {f : File} (h : Valid es f) {c : List String} {y : Text} {ps : List Text}
    {fs : List GField} (hm : Decl.type c y ps (.struct fs) ∈ f.decls) : ∀ gf ∈ fs, gf.name ≠ n "Decode" := by
  intro gf hgf he
  have hs := shape_of h.decls hm
  generalize hd : Decl.type c y ps (.struct fs) = d at hs
  cases hs with
  | type c' hi hb =>
    cases hd
    have := h.decl hm
    simp only [declProblems, List.append_eq_nil_iff, namesOk_nil] at this
    have hnd := this.1.2.1
    rw [List.nodup_append] at hnd
    exact hnd.2.2 _ (List.mem_map_of_mem hgf) _ (List.mem_map_of_mem (item_decode h.decls hi)) he
  | new hi hb => obtain ⟨ps, _, rfl⟩ := newTree_func hb; cases hd
  | _ => cases hd

theorem shape_interface {es : List Definition} {decls : List Decl} (h : declsOf es = some decls) {c : List String} {y : Text}
    {ps : List Text} {m : Text} (hm : Decl.type c y ps (.interface m) ∈ decls) : m = n "sealed" := by
  have hs := shape_of h hm
  generalize hd : Decl.type c y ps (.interface m) = d at hs
  cases hs with
  | type c' hi hb =>
    cases hd
    simp [structTree, Option.bind_eq_some_iff] at hb
  | new hi hb => obtain ⟨ps, _, rfl⟩ := newTree_func hb; cases hd
  | interface e he => cases hd; rfl
  | _ => cases hd

/-- A type that is read with three results does not have known members. -/
theorem Valid.members {es : List Definition} {f : File} (h : Valid es f) {Γ : GoRules.Scope} {g : GTy}
    (hm : ∀ ms, members f.decls Γ g = some ms →
      ∃ m, ms.find? (fun b => b.name = n "Decode") = some m ∧ (m.results = none ∨ m.results = some 3)) :
    GoRules.members f.decls Γ g = none := by
  cases hg : GoRules.members f.decls Γ g with
  | none => rfl
  | some ms =>
    exfalso
    obtain ⟨m, hf, hr⟩ := hm ms hg
    have hn : m.name = n "Decode" := by simpa using List.find?_some hf
    have hmem := List.mem_of_find?_eq_some hf
    have key : ∀ x, m ∈ methodsOf f.decls x → False := fun x hx => by
      have := decode_results h.decls hx hn
      rw [this] at hr; simp at hr
    cases g with
    | name x ts =>
      simp only [GoRules.members] at hg
      split at hg
      · cases hg; cases hmem
      · split at hg
        · rename_i fs hu
          cases hg
          rcases List.mem_append.1 hmem with hmem | hmem
          · simp only [List.mem_map] at hmem
            obtain ⟨gf, hgf, rfl⟩ := hmem
            rcases underlying_mem hu with ⟨y, c, ps, hd⟩ | ⟨t, ht⟩
            · exact h.no_decode hd gf hgf hn
            · cases ht
          · exact key x hmem
        · rename_i k hu
          cases hg
          rcases List.mem_cons.1 hmem with rfl | hmem
          · rcases underlying_mem hu with ⟨y, c, ps, hd⟩ | ⟨t, ht⟩
            · have := shape_interface h.decls hd
              rw [this] at hn
              exact absurd hn (by decide)
            · cases ht
          · exact key x hmem
        · cases hg; exact key x hmem
        · cases hg
    | _ => cases hg

/-- How a value of a named type is read. -/
theorem dec_external {ds : List Decl} {Γ : GoRules.Scope} {path : List String} {name : String} {args : List Ty} {x : Expr}
    (h : decTree (.external path name args) = some x) (hp : exprProblems ds Γ x = []) :
    ∃ g Γ', Ext Γ Γ' ∧ defTree (.external path name args) = some g ∧ tyProblems Γ' g = [] ∧
      ∀ ms, members ds ((n "value", .variable g) :: Γ') g = some ms →
        ∃ m, ms.find? (fun b => b.name = n "Decode") = some m ∧ (m.results = none ∨ m.results = some 3) := by
  rw [decTree] at h
  simp only [Option.bind_eq_bind, Option.bind_eq_some_iff, Option.pure_def, Option.some.injEq] at h
  obtain ⟨g, hg, rfl⟩ := h
  simp only [exprProblems, stmtsProblems, stmtProblems, List.append_eq_nil_iff] at hp
  obtain ⟨⟨⟨_, hv, ⟨hs, hr⟩, _⟩, _⟩, _⟩ := hp
  refine ⟨g, _, ext_bind _ Γ, hg, hv, fun ms hms => ?_⟩
  have hmo : membersOf ds (behind (GoRules.bind [(n "r", byteSlice)] Γ) (.varDecl (n "value") g)) (n "value") = some ms := by
    rw [membersOf, behind]
    simp only [meaning, List.find?_cons, decide_true, Option.map_some]
    exact hms
  have hsel : (ms.any fun m => m.name == n "Decode") = true := by
    simp only [exprsProblems, exprProblems, var, selProblems, hmo, demand_nil, List.append_eq_nil_iff] at hs
    exact hs.1.1.1.2
  have hret : (match (ms.find? fun b => b.name = n "Decode").bind (·.results) with | some k => k == 3 | none => true) = true := by
    simp only [returnProblems, valueCount, var, hmo, demand_nil, decResults, List.length_cons, List.length_nil] at hr
    exact hr
  cases hfind : ms.find? fun b => b.name = n "Decode" with
  | none =>
    rw [List.find?_eq_none] at hfind
    rw [List.any_eq_true] at hsel
    obtain ⟨m, hm, he⟩ := hsel
    exact absurd (by simpa using he) (hfind m hm)
  | some m =>
    refine ⟨m, rfl, ?_⟩
    rw [hfind] at hret
    cases hres : m.results with
    | none => exact .inl rfl
    | some k => simp [hres] at hret; exact .inr (by rw [hret])

theorem findType_of_mem {decls : List Decl} (hn : ((decls.flatMap declared).map (·.1)).Nodup) {c : List String} {x : Text}
    {ps : List Text} {b : TypeBody} (h : Decl.type c x ps b ∈ decls) : findType decls x = some b := by
  induction decls with
  | nil => cases h
  | cons d ds ih =>
    simp only [List.flatMap_cons, List.map_append, List.nodup_append] at hn
    rcases List.mem_cons.1 h with rfl | h
    · simp [findType]
    · have := ih hn.2.1 h
      rw [findType] at this ⊢
      rw [List.findSome?_cons]
      have hx : x ∈ (ds.flatMap declared).map (·.1) := by
        simp only [List.mem_map, List.mem_flatMap]
        exact ⟨(x, .type), ⟨_, h, by simp [declared]⟩, rfl⟩
      cases d with
      | type c' y ps' b' =>
        have : x ≠ y := fun he => hn.2.2 y (by simp [declared]) x hx he.symm
        simp only [if_neg this]
        assumption
      | _ => simpa using this

theorem Valid.declared {es : List Definition} {f : File} (h : Valid es f) : ((f.decls.flatMap GoRules.declared).map (·.1)).Nodup := by
  have := h.names
  rw [fileNames, List.nodup_append] at this
  exact this.2.1

/-- A field of a valid file refers only to other packages that are imported, or to aliases. -/
theorem Valid.reference {es : List Definition} {f : File} (h : Valid es f) {ret : String} {name : Text} {gs : List Text} {fs : Fields}
    (hi : ItemOf es ret name gs fs) {fld : Field} (hf : fld ∈ fs.fields) {t : DataType} (ht : fld.ty = simplifyType t)
    {path : List String} {x : String} {args : List DataType} {tr : Bool} (ho : OwnPiece (.external path x args tr) t) :
    (∃ p, path.getLast? = some p ∧ (p = "mabo" ∨ p = "buf")) ∨
      (path = [] ∧ ∃ a, Definition.typeAlias a ∈ es ∧ upperCamel a.name.toList = upperCamel x.toList) := by
  obtain ⟨e, Γ, hext, hd, hp⟩ := h.dec hi hf
  rw [ht] at hd
  obtain ⟨e', Γ', hext', hd', hp'⟩ := (dec_own (ds := f.decls) ho (.inr ⟨_, _, _, _, rfl⟩)).1 hd hp
  rw [simplifyType] at hd'
  obtain ⟨g, Γ'', hext'', hg, hty, hms⟩ := dec_external hd' hp'
  have hx := (hext.trans hext').trans hext''
  rw [defTree] at hg
  simp only [Option.bind_eq_bind, Option.bind_eq_some_iff, Option.pure_def] at hg
  obtain ⟨ts, _, hg⟩ := hg
  cases hl : path.getLast? with
  | some p =>
    rw [hl] at hg
    cases hg
    simp only [tyProblems, List.append_eq_nil_iff, demand_nil] at hty
    have hmem := hx _ _ (meaning_mem (isPackage_eq.1 hty.1)) (.inr rfl)
    simp only [bindTypes, fileScope, List.mem_append, List.mem_map, Prod.mk.injEq, List.mem_flatMap] at hmem
    refine .inl ⟨p, rfl, ?_⟩
    rcases hmem with ⟨_, _, _, hm⟩ | ((⟨i, hi, hip, _⟩ | ⟨d, _, hd⟩) | ⟨_, _, _, hm⟩) | ⟨_, _, _, hm⟩
    · cases hm
    · rw [h.imports, importTree] at hi
      simp only [List.mem_cons, List.not_mem_nil, or_false] at hi
      rcases hi with rfl | rfl
      · exact .inl (String.toList_inj.1 hip).symm
      · exact .inr (String.toList_inj.1 hip).symm
    · cases d <;> simp [GoRules.declared] at hd
    · cases hm
    · cases hm
  | none =>
    rw [hl] at hg
    cases hg
    have hpath : path = [] := List.getLast?_eq_none_iff.1 hl
    refine .inr ⟨hpath, ?_⟩
    have hnone := h.members hms
    have hv : n "value" ≠ upperCamel x.toList := fun he => by
      have := upperCamel_head x.toList _ _ he.symm
      exact absurd this (by decide)
    have hmean : meaning ((n "value", .variable (.name (upperCamel x.toList) ts)) :: Γ'') (upperCamel x.toList) =
        meaning Γ'' (upperCamel x.toList) := by
      simp [meaning, List.find?_cons, hv]
    simp only [GoRules.members] at hnone
    rw [hmean] at hnone
    simp only [tyProblems, List.append_eq_nil_iff] at hty
    have hty := hty.1
    cases hm : meaning Γ'' (upperCamel x.toList) with
    | none => rw [hm] at hty; cases hty
    | some m =>
      rw [hm] at hty hnone
      cases m with
      | package => cases hty
      | «variable» _ => cases hty
      | other => cases hty
      | typeParameter => cases hnone
      | type =>
        have hmem := hx _ _ (meaning_mem hm) (.inl rfl)
        simp only [bindTypes, fileScope, List.mem_append, List.mem_map, Prod.mk.injEq, List.mem_flatMap] at hmem
        have hdecl : ∃ c ps b, Decl.type c (upperCamel x.toList) ps b ∈ f.decls := by
          rcases hmem with ⟨_, _, _, hm⟩ | ((⟨i, hi, hip, hm⟩ | ⟨d, hd, hdx⟩) | ⟨y, hy, hye, _⟩) | ⟨_, _, _, hm⟩
          · cases hm
          · cases hm
          · cases d with
            | type c y ps b => 
              simp only [GoRules.declared, List.mem_cons, Prod.mk.injEq, List.not_mem_nil, or_false] at hdx
              rw [hdx.1]; exact ⟨c, ps, b, hd⟩
            | _ => simp [GoRules.declared] at hdx
          · exact absurd (hye ▸ hy) (upperCamel_predeclared _)
          · cases hm
        obtain ⟨c, ps, b, hb⟩ := hdecl
        have hfind := findType_of_mem h.declared hb
        have hlen : ∃ k, f.decls.length = k + 1 := by
          cases hde : f.decls with
          | nil => rw [hde] at hb; cases hb
          | cons d ds => exact ⟨ds.length, rfl⟩
        obtain ⟨k, hk⟩ := hlen
        have hs := shape_of h.decls hb
        generalize hd : Decl.type c (upperCamel x.toList) ps b = d at hs
        cases hs with
        | type c' hi hst =>
          cases hd
          simp only [structTree, Option.bind_eq_bind, Option.bind_eq_some_iff, Option.pure_def, Option.some.injEq] at hst
          obtain ⟨fs', _, rfl⟩ := hst
          rw [hk, underlying, hfind] at hnone
          simp at hnone
        | new hi hb => obtain ⟨ps, _, rfl⟩ := newTree_func hb; cases hd
        | interface e he =>
          injection hd with h1 h2 h3 h4
          subst h4
          rw [hk, underlying, hfind] at hnone
          simp at hnone
        | enum e he =>
          injection hd with h1 h2 h3 h4
          subst h4
          obtain ⟨here, h5, h6⟩ := declsOf_one h.decls he
          simp only [declsOne, enumDecls, Option.bind_eq_bind, Option.bind_eq_some_iff, Option.pure_def, Option.some.injEq] at h5
          obtain ⟨vs, hvs, rfl⟩ := h5
          have hi := findType_of_mem h.declared (h6 (Decl.type [] (upperCamel e.name.toList ++ n "Variant") [] (.interface (n "sealed"))) (by simp))
          have hk1 : ∃ j, k = j + 1 := by
            cases k with
            | succ j => exact ⟨j, rfl⟩
            | zero =>
              have h7 := h6 (Decl.type [] (upperCamel e.name.toList ++ n "Variant") [] (.interface (n "sealed"))) (by simp)
              obtain ⟨d0, hd0⟩ := List.length_eq_one_iff.1 hk
              rw [hd0, List.mem_singleton] at h7 hb
              rw [← hb] at h7
              injection h7 with _ _ _ h8; cases h8
          obtain ⟨j, rfl⟩ := hk1
          have hpre : upperCamel e.name.toList ++ n "Variant" ∉ predeclaredTypes := by
            intro hp
            obtain ⟨c0, cs, he1, he2⟩ := predeclared_lower _ hp
            cases hu : upperCamel e.name.toList with
            | nil => rw [hu] at he1; injection he1 with h1 _; rw [← h1] at he2; exact absurd he2 (by decide)
            | cons a as =>
              rw [hu] at he1
              simp only [List.cons_append, List.cons.injEq] at he1
              rw [he1.1] at hu
              rw [upperCamel_head _ _ _ hu] at he2
              cases he2
          rw [hk, underlying, hfind] at hnone
          simp only [if_neg hpre] at hnone
          rw [underlying, hi] at hnone
          simp at hnone
        | alias a ha hta =>
          injection hd with h1 h2 h3 h4
          exact ⟨a, ha, h2.symm⟩
        | _ => cases hd

end Mabo.Go
