import Verif.Go.Uses
/-! Which packages the declarations of a file use. -/
namespace Mabo.Go
open Mabo.Simplify Mabo.Spec Mabo.Spec.GoRules Mabo.Spec.GoBuild Mabo.Build
open Mabo.Ast (DataType)
open Mabo.Parse (Text)

theorem tysUse_false {p : Text} {ts : List GTy} : tysUse p ts = false ↔ ∀ t ∈ ts, tyUses p t = false := by
  induction ts with
  | nil => simp [tysUse]
  | cons t ts ih => simp [tysUse, ih]

theorem stmtsUse_false {p : Text} {ss : List Stmt} : stmtsUse p ss = false ↔ ∀ s ∈ ss, stmtUses p s = false := by
  induction ss with
  | nil => simp [stmtsUse]
  | cons t ts ih => simp [stmtsUse, ih]

theorem exprsUse_false {p : Text} {ss : List Expr} : exprsUse p ss = false ↔ ∀ s ∈ ss, exprUses p s = false := by
  induction ss with
  | nil => simp [exprsUse]
  | cons t ts ih => simp [exprsUse, ih]

theorem selfType_uses (p : Text) (x : Text) (gs : List Text) : tyUses p (selfType x gs) = false := by
  rw [selfType, tyUses, tysUse_false]
  intro t ht
  obtain ⟨g, _, rfl⟩ := List.mem_map.1 ht
  rfl

theorem encField_uses {f : Field} {s : Stmt} {t : DataType} (ht : f.ty = simplifyType t) (h : encFieldTree f = some s)
    (hu : ¬ Uses (n "mabo") t) : stmtUses (n "mabo") s = false := by
  have hb : n "mabo" ≠ n "big" := by decide
  have hbuf : n "mabo" ≠ n "buf" := by decide
  have plain : (do pure (.assign (var "w") (.call (buf (n "EncodeField")) [var "w", .nat f.id.toNat,
      .func true [(n "w", byteSlice)] [byteSlice] (returns (← encTree (.sel (var "v") (fieldName f)) f.ty))])) : Option Stmt) =
      some s → stmtUses (n "mabo") s = false := by
    intro h
    simp only [Option.bind_eq_bind, Option.bind_eq_some_iff, Option.pure_def, Option.some.injEq] at h
    obtain ⟨y, hy, rfl⟩ := h
    rw [ht] at hy
    have := enc_uses hb hbuf t hy hu rfl rfl (by decide)
    simp [stmtUses, exprUses, exprsUse, buf_uses hbuf, var_uses, tysUse, bytes_uses, returns, stmtsUse, this]
  cases hty : f.ty with
  | option u =>
    rw [encFieldTree.eq_def, hty] at h
    simp only [Option.bind_eq_bind, Option.bind_eq_some_iff, Option.pure_def, Option.some.injEq] at h
    obtain ⟨g, hg, y, hy, rfl⟩ := h
    rw [ht] at hty
    cases t with
    | option t' =>
      simp only [simplifyType, Ty.option.injEq] at hty
      subst hty
      rw [uses_option] at hu
      have := enc_uses hb hbuf t' hy hu rfl rfl (by decide)
      simp [stmtUses, exprUses, exprsUse, buf_uses hbuf, var_uses, tysUse, bytes_uses, returns, stmtsUse, this,
        tyUses_not hb hu hg, isName, var]
      decide
    | _ => simp [simplifyType] at hty
  | _ =>
    refine plain ?_
    rw [← h, encFieldTree.eq_def, hty]

theorem sizeField_uses {f : Field} {s : Stmt} {t : DataType} (ht : f.ty = simplifyType t) (h : sizeFieldTree f = some s)
    (hu : ¬ Uses (n "mabo") t) : stmtUses (n "mabo") s = false := by
  have hb : n "mabo" ≠ n "big" := by decide
  have hbuf : n "mabo" ≠ n "buf" := by decide
  have plain : (do pure (.addAssign (var "size") (.call (buf (n "SizeField")) [.nat f.id.toNat,
      .func false [] [named "int"] (returns (← sizeTree (.sel (var "v") (fieldName f)) f.ty))])) : Option Stmt) =
      some s → stmtUses (n "mabo") s = false := by
    intro h
    simp only [Option.bind_eq_bind, Option.bind_eq_some_iff, Option.pure_def, Option.some.injEq] at h
    obtain ⟨y, hy, rfl⟩ := h
    rw [ht] at hy
    have := size_uses hb hbuf t hy hu rfl rfl (by decide)
    simp [stmtUses, exprUses, exprsUse, buf_uses hbuf, var_uses, tysUse, named_uses, returns, stmtsUse, this]
  cases hty : f.ty with
  | option u =>
    rw [sizeFieldTree.eq_def, hty] at h
    simp only [Option.bind_eq_bind, Option.bind_eq_some_iff, Option.pure_def, Option.some.injEq] at h
    obtain ⟨g, hg, y, hy, rfl⟩ := h
    rw [ht] at hty
    cases t with
    | option t' =>
      simp only [simplifyType, Ty.option.injEq] at hty
      subst hty
      rw [uses_option] at hu
      have := size_uses hb hbuf t' hy hu rfl rfl (by decide)
      simp [stmtUses, exprUses, exprsUse, buf_uses hbuf, var_uses, tysUse, named_uses, returns, stmtsUse, this,
        tyUses_not hb hu hg, isName, var]
      decide
    | _ => simp [simplifyType] at hty
  | _ =>
    refine plain ?_
    rw [← h, sizeFieldTree.eq_def, hty]

theorem decField_uses {f : Field} {s : Stmt} {t : DataType} (ht : f.ty = simplifyType t) (h : decFieldTree f = some s)
    (hu : ¬ Uses (n "mabo") t) : stmtUses (n "mabo") s = false := by
  simp only [decFieldTree, Option.bind_eq_bind, Option.bind_eq_some_iff, Option.pure_def, Option.some.injEq] at h
  obtain ⟨y, hy, rfl⟩ := h
  rw [ht] at hy
  have := dec_uses (p := n "mabo") (by decide) (by decide) (by decide) t hy hu
  simp [stmtUses, stmtsUse, exprUses, exprsUse, this, isName, var]
  decide

/-- A file whose types do not have parts of the package `mabo` does not use it. -/
theorem file_uses {checked : Bool} {ds : List Ast.Definition} {es : List Definition} {decls : List Decl}
    (hs : Simplified checked ds es) (hd : declsOf es = some decls) (hu : ∀ t, AnyType ds t → ¬ Uses (n "mabo") t) :
    ∀ d ∈ decls, declUses (n "mabo") d = false := by
  intro d hdm
  have hb : n "mabo" ≠ n "big" := by decide
  have hbuf : n "mabo" ≠ n "buf" := by decide
  have fld : ∀ {ret name gs fs}, ItemOf es ret name gs fs → ∀ f ∈ fs.fields, ∃ t, f.ty = simplifyType t ∧ ¬ Uses (n "mabo") t := by
    intro ret name gs fs hi f hf
    obtain ⟨t, ht, he⟩ := of_field hs hi hf
    exact ⟨t, he, hu t (.inl ht)⟩
  cases shape_of hd hdm with
  | type c hi hb' =>
    simp only [structTree, Option.bind_eq_bind, Option.bind_eq_some_iff, Option.pure_def, Option.some.injEq] at hb'
    obtain ⟨gfs, hg, rfl⟩ := hb'
    rw [declUses, tysUse_false]
    intro t ht
    obtain ⟨gf, hgf, rfl⟩ := List.mem_map.1 ht
    obtain ⟨f, hf, he⟩ := (allOf_mem hg).2 gf hgf
    simp only [Option.bind_eq_some_iff, Option.some.injEq] at he
    obtain ⟨g, hd', rfl⟩ := he
    obtain ⟨t, he, hut⟩ := fld hi f hf
    exact tyUses_not hb hut (he ▸ hd')
  | new hi hn =>
    obtain ⟨ps, hps, rfl⟩ := newTree_func hn
    have h1 : tysUse (n "mabo") (ps.map (·.2)) = false := by
      rw [tysUse_false]
      intro t ht
      obtain ⟨gf, hgf, rfl⟩ := List.mem_map.1 ht
      obtain ⟨f, hf, he⟩ := (allOf_mem hps).2 gf hgf
      simp only [Option.bind_eq_bind, Option.bind_eq_some_iff, Option.some.injEq, Option.pure_def] at he
      obtain ⟨g, hd', rfl⟩ := he
      obtain ⟨t, he, hut⟩ := fld hi f hf
      exact tyUses_not hb hut (he ▸ hd')
    have h2 : ∀ l : List Field, exprsUse (n "mabo") (l.map fun f => .entry (fieldName f) 0 (.id (paramName f))) = false := by
      intro l
      rw [exprsUse_false]
      intro x hx
      obtain ⟨f, _, rfl⟩ := List.mem_map.1 hx
      rfl
    simp [declUses, h1, selfType_uses, stmtsUse, stmtUses, exprsUse, exprUses, h2]
  | implements x hi hx => simp [declUses, tyUses, tysUse, hbuf]
  | @encode ret name gs fs body hi hb' =>
    have : stmtsUse (n "mabo") body = false := by
      rw [encFieldsTree] at hb'
      split at hb'
      · cases hb'; rfl
      · simp only [Option.bind_eq_bind, Option.bind_eq_some_iff, Option.pure_def, Option.some.injEq] at hb'
        obtain ⟨ss, hss, rfl⟩ := hb'
        have h1 : stmtsUse (n "mabo") ss = false := by
          rw [stmtsUse_false]
          intro s hsm
          obtain ⟨f, hf, he⟩ := (allOf_mem hss).2 s hsm
          obtain ⟨t, ht, hut⟩ := fld hi f hf
          exact encField_uses ht he hut
        simp [stmtsUse_append, h1, stmtsUse, stmtUses, exprUses, exprsUse, buf_uses hbuf, var_uses]
    simp [declUses, tysUse, bytes_uses, stmtsUse_append, this, stmtsUse, stmtUses, exprsUse, var_uses]
  | @decode ret name gs fs body hi hb' =>
    simp only [decBodyTree, Option.bind_eq_bind, Option.bind_eq_some_iff, Option.pure_def, Option.some.injEq] at hb'
    obtain ⟨ss, hss, rfl⟩ := hb'
    have h1 : stmtsUse (n "mabo") ss = false := by
      rw [stmtsUse_false]
      intro s hsm
      obtain ⟨f, hf, he⟩ := (allOf_mem hss).2 s hsm
      obtain ⟨t, ht, hut⟩ := fld hi f hf
      exact decField_uses ht he hut
    have h2 : stmtsUse (n "mabo") (fs.fields.map foundVarTree) = false := by
      rw [stmtsUse_false]
      intro s hsm
      obtain ⟨f, _, rfl⟩ := List.mem_map.1 hsm
      rfl
    have h3 : stmtsUse (n "mabo") (fs.fields.map (foundCheckTree fs.kind)) = false := by
      rw [stmtsUse_false]
      intro s hsm
      obtain ⟨f, _, rfl⟩ := List.mem_map.1 hsm
      rfl
    simp [declUses, tysUse, bytes_uses, named_uses, stmtsUse_append, h1, h2, h3, stmtsUse, stmtUses, exprsUse, exprUses, var_uses,
      decLoopTree, buf_uses hbuf]
  | @size ret name gs fs body hi hb' =>
    have : stmtsUse (n "mabo") body = false := by
      rw [sizeFieldsTree] at hb'
      split at hb'
      · cases hb'; rfl
      · simp only [Option.bind_eq_bind, Option.bind_eq_some_iff, Option.pure_def, Option.some.injEq] at hb'
        obtain ⟨ss, hss, rfl⟩ := hb'
        have h1 : stmtsUse (n "mabo") ss = false := by
          rw [stmtsUse_false]
          intro s hsm
          obtain ⟨f, hf, he⟩ := (allOf_mem hss).2 s hsm
          obtain ⟨t, ht, hut⟩ := fld hi f hf
          exact sizeField_uses ht he hut
        simp [stmtsUse_append, h1, stmtsUse, stmtUses, exprUses, exprsUse, buf_uses hbuf, var_uses]
    simp [declUses, tysUse, named_uses, stmtsUse_append, this, stmtsUse, stmtUses, exprsUse, exprUses, var_uses]
  | «sealed» hi => rfl
  | interface e he => rfl
  | enum e he => rfl
  | alias a ha ht =>
    obtain ⟨a', ha', _, he⟩ := of_alias hs ha
    exact tyUses_not hb (hu _ (.inr ⟨a', ha', rfl⟩)) (he ▸ ht)
  | const c hc ht =>
    rw [declUses]
    rw [constTree.eq_def] at ht
    split at ht
    · cases ht
    · cases ht
    · rename_i p _ _ _
      cases ht
      cases p <;> simp [primTree, named, byteSlice, tyUses, tysUse, hb]
    · cases ht
  | blank => rfl

/-- A file without structs and variants, and without references, does not use the package `buf`. -/
theorem file_buf {checked : Bool} {ds : List Ast.Definition} {es : List Definition} {decls : List Decl}
    (hs : Simplified checked ds es) (hd : declsOf es = some decls) (hu : ∀ t, AnyType ds t → ¬ Uses (n "buf") t)
    (hi : ∀ x gens fs, ¬ Item ds x gens fs) : ∀ d ∈ decls, declUses (n "buf") d = false := by
  intro d hdm
  have hb : n "buf" ≠ n "big" := by decide
  have no : ∀ {ret name gs fs}, ¬ ItemOf es ret name gs fs := fun h => by
    obtain ⟨_, _, h, _⟩ := of_item hs h
    exact hi _ _ _ h
  cases shape_of hd hdm with
  | type c hi hb' => exact absurd hi no
  | new hi hn => exact absurd hi no
  | implements x hi hx => exact absurd hi no
  | encode hi hb' => exact absurd hi no
  | decode hi hb' => exact absurd hi no
  | size hi hb' => exact absurd hi no
  | «sealed» hi => exact absurd hi no
  | interface e he => rfl
  | enum e he => rfl
  | alias a ha ht =>
    obtain ⟨a', ha', _, he⟩ := of_alias hs ha
    exact tyUses_not hb (hu _ (.inr ⟨a', ha', rfl⟩)) (he ▸ ht)
  | const c hc ht =>
    rw [declUses]
    rw [constTree.eq_def] at ht
    split at ht
    · cases ht
    · cases ht
    · rename_i p _ _ _
      cases ht
      cases p <;> simp [primTree, named, byteSlice, tyUses, tysUse, hb]
    · cases ht
  | blank => rfl

end Mabo.Go
