import Verif.Go.Bridge
/-! Which packages a file uses. -/
namespace Mabo.Go
open Mabo.Simplify Mabo.Spec Mabo.Spec.GoRules Mabo.Spec.GoBuild Mabo.Build
open Mabo.Ast (DataType)
open Mabo.Parse (Text)

/-- Types of the package. -/
def Qual (p : Text) : DataType → Prop
  | .nonZero _ | .tuple _ _ => p = n "mabo"
  | .external path _ _ _ => ∃ q, path.getLast? = some q ∧ p = q.toList
  | _ => False

/-- The type has a part of the package. -/
def Uses (p : Text) (t : DataType) : Prop := ∃ u, Piece u t ∧ Qual p u

theorem uses_prim {p q} : ¬ Uses p (.prim q) := by rintro ⟨u, hu, hq⟩; cases hu; exact hq
theorem uses_vec {p t} : Uses p (.vec t) ↔ Uses p t :=
  ⟨by rintro ⟨u, hu, hq⟩; cases hu with | here => cases hq | vec h => exact ⟨u, h, hq⟩, fun ⟨u, h, hq⟩ => ⟨u, .vec h, hq⟩⟩
theorem uses_hashSet {p t} : Uses p (.hashSet t) ↔ Uses p t :=
  ⟨by rintro ⟨u, hu, hq⟩; cases hu with | here => cases hq | hashSet h => exact ⟨u, h, hq⟩, fun ⟨u, h, hq⟩ => ⟨u, .hashSet h, hq⟩⟩
theorem uses_option {p t} : Uses p (.option t) ↔ Uses p t :=
  ⟨by rintro ⟨u, hu, hq⟩; cases hu with | here => cases hq | option h => exact ⟨u, h, hq⟩, fun ⟨u, h, hq⟩ => ⟨u, .option h, hq⟩⟩
theorem uses_array {p t k} : Uses p (.array t k) ↔ Uses p t :=
  ⟨by rintro ⟨u, hu, hq⟩; cases hu with | here => cases hq | array h => exact ⟨u, h, hq⟩, fun ⟨u, h, hq⟩ => ⟨u, .array h, hq⟩⟩
theorem uses_hashMap {p k v} : Uses p (.hashMap k v) ↔ Uses p k ∨ Uses p v := by
  constructor
  · rintro ⟨u, hu, hq⟩
    cases hu with
    | here => cases hq
    | hashMapKey h => exact .inl ⟨u, h, hq⟩
    | hashMapValue h => exact .inr ⟨u, h, hq⟩
  · rintro (⟨u, h, hq⟩ | ⟨u, h, hq⟩)
    · exact ⟨u, .hashMapKey h, hq⟩
    · exact ⟨u, .hashMapValue h, hq⟩
theorem uses_nonZero {p t} : Uses p (.nonZero t) ↔ p = n "mabo" ∨ Uses p t := by
  constructor
  · rintro ⟨u, hu, hq⟩
    cases hu with
    | here => exact .inl hq
    | nonZero h => exact .inr ⟨u, h, hq⟩
  · rintro (rfl | ⟨u, h, hq⟩)
    · exact ⟨_, .here, rfl⟩
    · exact ⟨u, .nonZero h, hq⟩
theorem uses_tuple {p ts tr} : Uses p (.tuple ts tr) ↔ p = n "mabo" ∨ ∃ t ∈ ts, Uses p t := by
  constructor
  · rintro ⟨u, hu, hq⟩
    cases hu with
    | here => exact .inl hq
    | tuple hm h => exact .inr ⟨_, hm, u, h, hq⟩
  · rintro (rfl | ⟨t, hm, u, h, hq⟩)
    · exact ⟨_, .here, rfl⟩
    · exact ⟨u, .tuple hm h, hq⟩
theorem uses_external {p path x ts tr} : Uses p (.external path x ts tr) ↔
    (∃ q, path.getLast? = some q ∧ p = q.toList) ∨ ∃ t ∈ ts, Uses p t := by
  constructor
  · rintro ⟨u, hu, hq⟩
    cases hu with
    | here => exact .inl hq
    | argument hm h => exact .inr ⟨_, hm, u, h, hq⟩
  · rintro (hq | ⟨t, hm, u, h, hq⟩)
    · exact ⟨_, .here, hq⟩
    · exact ⟨u, .argument hm h, hq⟩

theorem uses_runtime {t : DataType} : Uses (n "mabo") t ↔ ∃ u, Piece u t ∧ IsRuntime u := by
  have : ∀ u, Qual (n "mabo") u ↔ IsRuntime u := by
    intro u
    cases u with
    | external path x as tr =>
      simp only [Qual, IsRuntime]
      constructor
      · rintro ⟨q, h, he⟩; rw [h, String.toList_inj.1 he]
      · intro h; exact ⟨_, h, rfl⟩
    | _ => simp [Qual, IsRuntime]
  simp [Uses, this]

mutual
/-- The types of a package occur in the Go type. -/
theorem tyUses_iff {p : Text} (hb : p ≠ n "big") : ∀ (t : DataType) {g : GTy}, defTree (simplifyType t) = some g →
    (tyUses p g = true ↔ Uses p t)
  | .prim q, g, h => by
    rw [simplifyType, defTree] at h
    cases h
    simp only [uses_prim, iff_false, Bool.not_eq_true]
    cases q <;> simp [primTree, named, byteSlice, tyUses, tysUse, hb]
  | .vec t, g, h => by
    simp only [simplifyType, defTree, Option.bind_eq_bind, Option.bind_eq_some_iff, Option.pure_def, Option.some.injEq] at h
    obtain ⟨g1, h1, rfl⟩ := h
    rw [tyUses, tyUses_iff hb t h1, uses_vec]
  | .option t, g, h => by
    simp only [simplifyType, defTree, Option.bind_eq_bind, Option.bind_eq_some_iff, Option.pure_def, Option.some.injEq] at h
    obtain ⟨g1, h1, rfl⟩ := h
    rw [tyUses, tyUses_iff hb t h1, uses_option]
  | .array t k, g, h => by
    simp only [simplifyType, defTree, Option.bind_eq_bind, Option.bind_eq_some_iff, Option.pure_def, Option.some.injEq] at h
    obtain ⟨g1, h1, rfl⟩ := h
    rw [tyUses, tyUses_iff hb t h1, uses_array]
  | .hashSet t, g, h => by
    simp only [simplifyType, defTree, Option.bind_eq_bind, Option.bind_eq_some_iff, Option.pure_def, Option.some.injEq] at h
    obtain ⟨g1, h1, rfl⟩ := h
    rw [tyUses, tyUses, Bool.or_false, tyUses_iff hb t h1, uses_hashSet]
  | .hashMap k v, g, h => by
    simp only [simplifyType, defTree, Option.bind_eq_bind, Option.bind_eq_some_iff, Option.pure_def, Option.some.injEq] at h
    obtain ⟨g1, h1, g2, h2, rfl⟩ := h
    rw [tyUses, Bool.or_eq_true, tyUses_iff hb k h1, tyUses_iff hb v h2, uses_hashMap]
  | .nonZero (.prim q), g, h => by
    rw [simplifyType, simplifyType, defTree] at h
    rw [uses_nonZero]
    simp only [uses_prim, or_false]
    cases q <;> simp only [nzPrimTree, Option.some.injEq, reduceCtorEq] at h <;> subst h <;> simp [tyUses, tysUse]
  | .nonZero (.vec t), g, h => by
    simp only [simplifyType, defTree, Option.bind_eq_bind, Option.bind_eq_some_iff, Option.pure_def, Option.some.injEq] at h
    obtain ⟨g1, h1, rfl⟩ := h
    simp only [tyUses, tysUse, Bool.or_false, Bool.or_eq_true, beq_iff_eq, tyUses_iff hb t h1, uses_nonZero, uses_vec]
  | .nonZero (.hashSet t), g, h => by
    simp only [simplifyType, defTree, Option.bind_eq_bind, Option.bind_eq_some_iff, Option.pure_def, Option.some.injEq] at h
    obtain ⟨g1, h1, rfl⟩ := h
    simp only [tyUses, tysUse, Bool.or_false, Bool.or_eq_true, beq_iff_eq, tyUses_iff hb t h1, uses_nonZero, uses_hashSet]
  | .nonZero (.hashMap k v), g, h => by
    simp only [simplifyType, defTree, Option.bind_eq_bind, Option.bind_eq_some_iff, Option.pure_def, Option.some.injEq] at h
    obtain ⟨g1, h1, g2, h2, rfl⟩ := h
    simp only [tyUses, tysUse, Bool.or_false, Bool.or_eq_true, beq_iff_eq, tyUses_iff hb k h1, tyUses_iff hb v h2, uses_nonZero,
      uses_hashMap]
  | .nonZero (.option _), g, h | .nonZero (.nonZero _), g, h | .nonZero (.tuple _ _), g, h | .nonZero (.array _ _), g, h
  | .nonZero (.external _ _ _ _), g, h => by simp [simplifyType, defTree] at h
  | .tuple ts tr, g, h => by
    simp only [simplifyType, defTree, Option.bind_eq_bind, Option.bind_eq_some_iff, Option.pure_def, Option.some.injEq] at h
    obtain ⟨gs, h1, rfl⟩ := h
    simp only [tyUses, Bool.or_eq_true, beq_iff_eq, tysUse_iff hb ts h1, uses_tuple]
  | .external path x ts tr, g, h => by
    simp only [simplifyType, defTree, Option.bind_eq_bind, Option.bind_eq_some_iff, Option.pure_def] at h
    obtain ⟨gs, h1, h2⟩ := h
    rw [uses_external]
    cases hl : path.getLast? with
    | none => rw [hl] at h2; cases h2; simp [tyUses, tysUse_iff hb ts h1]
    | some q => rw [hl] at h2; cases h2; simp [tyUses, tysUse_iff hb ts h1]
/-- On a list. -/
theorem tysUse_iff {p : Text} (hb : p ≠ n "big") : ∀ (ts : List DataType) {gs : List GTy}, defTrees (simplifyTypes ts) = some gs →
    (tysUse p gs = true ↔ ∃ t ∈ ts, Uses p t)
  | [], gs, h => by cases h; simp [tysUse]
  | t :: ts, gs, h => by
    rw [simplifyTypes, defTrees] at h
    simp only [Option.bind_eq_bind, Option.bind_eq_some_iff, Option.pure_def, Option.some.injEq] at h
    obtain ⟨g, hg, gs', hgs, rfl⟩ := h
    simp [tysUse, tyUses_iff hb t hg, tysUse_iff hb ts hgs]
end

/-! ### Expressions -/

section
variable {p : Text}

theorem tyUses_not (hb : p ≠ n "big") {t : DataType} (h : ¬ Uses p t) {g : GTy} (hg : defTree (simplifyType t) = some g) : tyUses p g = false := by
  rw [← tyUses_iff hb t hg] at h; simpa using h

theorem bytes_uses (p : Text) : tyUses p byteSlice = false := rfl
theorem named_uses (p : Text) (x : String) : tyUses p (named x) = false := rfl

theorem buf_uses (hbuf : p ≠ n "buf") (x : Text) : exprUses p (buf x) = false := by simp [buf, exprUses, isName, hbuf]

theorem encFunc_uses {x : String} {t : GTy} {e : Expr} (h1 : tyUses p t = false) (h2 : exprUses p e = false) :
    exprUses p (encFunc x t e) = false := by
  simp [encFunc, exprUses, tysUse, returns, stmtsUse, stmtUses, exprsUse, h1, h2, bytes_uses]

theorem sizeFunc_uses {x : String} {t : GTy} {e : Expr} (h1 : tyUses p t = false) (h2 : exprUses p e = false) :
    exprUses p (sizeFunc x t e) = false := by
  simp [sizeFunc, exprUses, tysUse, returns, stmtsUse, stmtUses, exprsUse, h1, h2, named_uses]

theorem decFunc_uses {t : GTy} {e : Expr} (h1 : tyUses p t = false) (h2 : exprUses p e = false) :
    exprUses p (decFunc t e) = false := by
  simp [decFunc, decResults, exprUses, tysUse, returns, stmtsUse, stmtUses, exprsUse, h1, h2, named_uses, bytes_uses]

theorem var_uses (p : Text) (x : String) : exprUses p (var x) = false := rfl

theorem stmtsUse_append (p : Text) : ∀ ss ts : List Stmt, stmtsUse p (ss ++ ts) = (stmtsUse p ss || stmtsUse p ts)
  | [], ts => by simp [stmtsUse]
  | s :: ss, ts => by simp [stmtsUse, stmtsUse_append p ss ts, Bool.or_assoc]

mutual
/-- Encoding a value does not use other packages than those of the type. -/
theorem enc_uses (hb : p ≠ n "big") (hbuf : p ≠ n "buf") : ∀ (t : DataType) {e x : Expr}, encTree e (simplifyType t) = some x → ¬ Uses p t →
    isName p e = false → exprUses p e = false → (p ≠ n "v" ∧ p ≠ n "k") → exprUses p x = false
  | .prim q, e, x, h, hu, he, he', hv => by
    rw [simplifyType, encTree] at h; cases h
    simp [exprUses, exprsUse, buf_uses hbuf, var_uses, he']
  | .vec t, e, x, h, hu, he, he', hv => by
    simp only [simplifyType, encTree, Option.bind_eq_bind, Option.bind_eq_some_iff, Option.pure_def, Option.some.injEq] at h
    obtain ⟨g, hg, y, hy, rfl⟩ := h
    rw [uses_vec] at hu
    have ih := enc_uses hb hbuf t hy hu (by simp [isName, var, hv]) rfl hv
    simp [exprUses, exprsUse, tysUse, buf_uses hbuf, var_uses, he', tyUses_not hb hu hg, encFunc_uses (tyUses_not hb hu hg) ih]
  | .hashSet t, e, x, h, hu, he, he', hv => by
    simp only [simplifyType, encTree, Option.bind_eq_bind, Option.bind_eq_some_iff, Option.pure_def, Option.some.injEq] at h
    obtain ⟨g, hg, y, hy, rfl⟩ := h
    rw [uses_hashSet] at hu
    have ih := enc_uses hb hbuf t hy hu (by simp [isName, var, hv]) rfl hv
    simp [exprUses, exprsUse, tysUse, buf_uses hbuf, var_uses, he', tyUses_not hb hu hg, encFunc_uses (tyUses_not hb hu hg) ih]
  | .option t, e, x, h, hu, he, he', hv => by
    simp only [simplifyType, encTree, Option.bind_eq_bind, Option.bind_eq_some_iff, Option.pure_def, Option.some.injEq] at h
    obtain ⟨g, hg, y, hy, rfl⟩ := h
    rw [uses_option] at hu
    have ih := enc_uses hb hbuf t hy hu (by simp [isName, var, hv]) rfl hv
    simp [exprUses, exprsUse, tysUse, buf_uses hbuf, var_uses, he', tyUses_not hb hu hg, encFunc_uses (tyUses_not hb hu hg) ih]
  | .hashMap k v, e, x, h, hu, he, he', hv => by
    simp only [simplifyType, encTree, Option.bind_eq_bind, Option.bind_eq_some_iff, Option.pure_def, Option.some.injEq] at h
    obtain ⟨g, hg, g', hg', y, hy, y', hy', rfl⟩ := h
    rw [uses_hashMap, not_or] at hu
    have ih := enc_uses hb hbuf k hy hu.1 (by simp [isName, var, hv]) rfl hv
    have ih' := enc_uses hb hbuf v hy' hu.2 (by simp [isName, var, hv]) rfl hv
    simp [exprUses, exprsUse, tysUse, buf_uses hbuf, var_uses, he', tyUses_not hb hu.1 hg, tyUses_not hb hu.2 hg',
      encFunc_uses (tyUses_not hb hu.1 hg) ih, encFunc_uses (tyUses_not hb hu.2 hg') ih']
  | .nonZero t, e, x, h, hu, he, he', hv => by
    rw [simplifyType, encTree] at h
    split at h
    · rw [uses_nonZero, not_or] at hu
      exact enc_uses hb hbuf t h hu.2 rfl (by simp [exprUses, exprsUse, he, he']) hv
    · cases h
  | .tuple ts tr, e, x, h, hu, he, he', hv => by
    rw [simplifyType, encTree] at h
    split at h
    · simp only [Option.bind_eq_bind, Option.bind_eq_some_iff, Option.pure_def, Option.some.injEq] at h
      obtain ⟨b, hb', rfl⟩ := h
      rw [uses_tuple, not_or] at hu
      have := encs_uses hb hbuf ts hb' (fun t ht h => hu.2 ⟨t, ht, h⟩) he he' hv
      simp [exprUses, exprsUse, tysUse, stmtsUse_append, this, stmtsUse, stmtUses, var_uses, bytes_uses]
    · cases h
  | .array t k, e, x, h, hu, he, he', hv => by
    rw [simplifyType, encTree] at h
    split at h
    · simp only [Option.bind_eq_bind, Option.bind_eq_some_iff, Option.pure_def, Option.some.injEq] at h
      obtain ⟨g, hg, y, hy, rfl⟩ := h
      rw [uses_array] at hu
      have ih := enc_uses hb hbuf t hy hu (by simp [isName, var, hv]) rfl hv
      simp [exprUses, exprsUse, tysUse, buf_uses hbuf, var_uses, he', tyUses_not hb hu hg, encFunc_uses (tyUses_not hb hu hg) ih]
    · cases h
  | .external _ _ _ _, e, x, h, hu, he, he', hv => by
    rw [simplifyType, encTree] at h; cases h
    simp [exprUses, exprsUse, var_uses, he', he]
/-- On the elements of a tuple. -/
theorem encs_uses (hb : p ≠ n "big") (hbuf : p ≠ n "buf") : ∀ (ts : List DataType) {i : Nat} {e : Expr} {ss : List Stmt},
    encTrees e i (simplifyTypes ts) = some ss → (∀ t ∈ ts, ¬ Uses p t) → isName p e = false → exprUses p e = false →
    (p ≠ n "v" ∧ p ≠ n "k") → stmtsUse p ss = false
  | [], i, e, ss, h, hu, he, he', hv => by cases h; rfl
  | t :: ts, i, e, ss, h, hu, he, he', hv => by
    rw [simplifyTypes, encTrees] at h
    simp only [Option.bind_eq_bind, Option.bind_eq_some_iff, Option.pure_def, Option.some.injEq] at h
    obtain ⟨y, hy, ys, hys, rfl⟩ := h
    have ih := enc_uses hb hbuf t hy (hu t List.mem_cons_self) rfl (by simp [exprUses, he, he']) hv
    have ihs := encs_uses hb hbuf ts hys (fun t ht => hu t (List.mem_cons_of_mem _ ht)) he he' hv
    simp [stmtsUse, stmtUses, var_uses, ih, ihs]
end

mutual
/-- Measuring a value does not use other packages than those of the type. -/
theorem size_uses (hb : p ≠ n "big") (hbuf : p ≠ n "buf") : ∀ (t : DataType) {e x : Expr}, sizeTree e (simplifyType t) = some x → ¬ Uses p t →
    isName p e = false → exprUses p e = false → (p ≠ n "v" ∧ p ≠ n "k") → exprUses p x = false
  | .prim q, e, x, h, hu, he, he', hv => by
    rw [simplifyType, sizeTree] at h; cases h
    simp [exprUses, exprsUse, buf_uses hbuf, he']
  | .vec t, e, x, h, hu, he, he', hv => by
    simp only [simplifyType, sizeTree, Option.bind_eq_bind, Option.bind_eq_some_iff, Option.pure_def, Option.some.injEq] at h
    obtain ⟨g, hg, y, hy, rfl⟩ := h
    rw [uses_vec] at hu
    have ih := size_uses hb hbuf t hy hu (by simp [isName, var, hv]) rfl hv
    simp [exprUses, exprsUse, tysUse, buf_uses hbuf, he', tyUses_not hb hu hg, sizeFunc_uses (tyUses_not hb hu hg) ih]
  | .hashSet t, e, x, h, hu, he, he', hv => by
    simp only [simplifyType, sizeTree, Option.bind_eq_bind, Option.bind_eq_some_iff, Option.pure_def, Option.some.injEq] at h
    obtain ⟨g, hg, y, hy, rfl⟩ := h
    rw [uses_hashSet] at hu
    have ih := size_uses hb hbuf t hy hu (by simp [isName, var, hv]) rfl hv
    simp [exprUses, exprsUse, tysUse, buf_uses hbuf, he', tyUses_not hb hu hg, sizeFunc_uses (tyUses_not hb hu hg) ih]
  | .option t, e, x, h, hu, he, he', hv => by
    simp only [simplifyType, sizeTree, Option.bind_eq_bind, Option.bind_eq_some_iff, Option.pure_def, Option.some.injEq] at h
    obtain ⟨g, hg, y, hy, rfl⟩ := h
    rw [uses_option] at hu
    have ih := size_uses hb hbuf t hy hu (by simp [isName, var, hv]) rfl hv
    simp [exprUses, exprsUse, tysUse, buf_uses hbuf, he', tyUses_not hb hu hg, sizeFunc_uses (tyUses_not hb hu hg) ih]
  | .hashMap k v, e, x, h, hu, he, he', hv => by
    simp only [simplifyType, sizeTree, Option.bind_eq_bind, Option.bind_eq_some_iff, Option.pure_def, Option.some.injEq] at h
    obtain ⟨g, hg, g', hg', y, hy, y', hy', rfl⟩ := h
    rw [uses_hashMap, not_or] at hu
    have ih := size_uses hb hbuf k hy hu.1 (by simp [isName, var, hv]) rfl hv
    have ih' := size_uses hb hbuf v hy' hu.2 (by simp [isName, var, hv]) rfl hv
    simp [exprUses, exprsUse, tysUse, buf_uses hbuf, he', tyUses_not hb hu.1 hg, tyUses_not hb hu.2 hg',
      sizeFunc_uses (tyUses_not hb hu.1 hg) ih, sizeFunc_uses (tyUses_not hb hu.2 hg') ih']
  | .nonZero t, e, x, h, hu, he, he', hv => by
    rw [simplifyType, sizeTree] at h
    split at h
    · rw [uses_nonZero, not_or] at hu
      exact size_uses hb hbuf t h hu.2 rfl (by simp [exprUses, exprsUse, he, he']) hv
    · cases h
  | .tuple ts tr, e, x, h, hu, he, he', hv => by
    rw [simplifyType, sizeTree] at h
    split at h
    · simp only [Option.bind_eq_bind, Option.bind_eq_some_iff, Option.pure_def, Option.some.injEq] at h
      obtain ⟨b, hb', rfl⟩ := h
      rw [uses_tuple, not_or] at hu
      have := sizes_uses hb hbuf ts hb' (fun t ht h => hu.2 ⟨t, ht, h⟩) he he' hv
      simp [exprUses, exprsUse, tysUse, stmtsUse_append, this, stmtsUse, stmtUses, var_uses, named_uses]
    · cases h
  | .array t k, e, x, h, hu, he, he', hv => by
    rw [simplifyType, sizeTree] at h
    split at h
    · simp only [Option.bind_eq_bind, Option.bind_eq_some_iff, Option.pure_def, Option.some.injEq] at h
      obtain ⟨g, hg, y, hy, rfl⟩ := h
      rw [uses_array] at hu
      have ih := size_uses hb hbuf t hy hu (by simp [isName, var, hv]) rfl hv
      simp [exprUses, exprsUse, tysUse, buf_uses hbuf, he', tyUses_not hb hu hg, sizeFunc_uses (tyUses_not hb hu hg) ih]
    · cases h
  | .external _ _ _ _, e, x, h, hu, he, he', hv => by
    rw [simplifyType, sizeTree] at h; cases h
    simp [exprUses, exprsUse, he', he]
/-- On the elements of a tuple. -/
theorem sizes_uses (hb : p ≠ n "big") (hbuf : p ≠ n "buf") : ∀ (ts : List DataType) {i : Nat} {e : Expr} {ss : List Stmt},
    sizeTrees e i (simplifyTypes ts) = some ss → (∀ t ∈ ts, ¬ Uses p t) → isName p e = false → exprUses p e = false →
    (p ≠ n "v" ∧ p ≠ n "k") → stmtsUse p ss = false
  | [], i, e, ss, h, hu, he, he', hv => by cases h; rfl
  | t :: ts, i, e, ss, h, hu, he, he', hv => by
    rw [simplifyTypes, sizeTrees] at h
    simp only [Option.bind_eq_bind, Option.bind_eq_some_iff, Option.pure_def, Option.some.injEq] at h
    obtain ⟨y, hy, ys, hys, rfl⟩ := h
    have ih := size_uses hb hbuf t hy (hu t List.mem_cons_self) rfl (by simp [exprUses, he, he']) hv
    have ihs := sizes_uses hb hbuf ts hys (fun t ht => hu t (List.mem_cons_of_mem _ ht)) he he' hv
    simp [stmtsUse, stmtUses, var_uses, ih, ihs]
end

theorem decSingle_uses (hbuf : p ≠ n "buf") {f : Text} {g : Option GTy} {e : Option Expr} {x : Expr} (h : decSingleTree f g e = some x)
    (hg : ∀ t, g = some t → tyUses p t = false) (he : ∀ y, e = some y → exprUses p y = false) : exprUses p x = false := by
  simp only [decSingleTree, Option.bind_eq_bind, Option.bind_eq_some_iff, Option.pure_def, Option.some.injEq] at h
  obtain ⟨t, ht, y, hy, rfl⟩ := h
  simp [exprUses, exprsUse, tysUse, buf_uses hbuf, var_uses, hg t ht, decFunc_uses (hg t ht) (he y hy)]

theorem decPair_uses (hbuf : p ≠ n "buf") {f : Text} {g g' : Option GTy} {e e' : Option Expr} {x : Expr}
    (h : decPairTree f g g' e e' = some x)
    (hg : ∀ t, g = some t → tyUses p t = false) (he : ∀ y, e = some y → exprUses p y = false)
    (hg' : ∀ t, g' = some t → tyUses p t = false) (he' : ∀ y, e' = some y → exprUses p y = false) : exprUses p x = false := by
  simp only [decPairTree, Option.bind_eq_bind, Option.bind_eq_some_iff, Option.pure_def, Option.some.injEq] at h
  obtain ⟨t, ht, t', ht', y, hy, y', hy', rfl⟩ := h
  simp [exprUses, exprsUse, tysUse, buf_uses hbuf, var_uses, hg t ht, hg' t' ht', decFunc_uses (hg t ht) (he y hy),
    decFunc_uses (hg' t' ht') (he' y' hy')]

mutual
/-- Reading a value does not use other packages than those of the type. -/
theorem dec_uses (hb : p ≠ n "big") (hbuf : p ≠ n "buf") (hv : p ≠ n "value" ∧ p ≠ n "tuple") : ∀ (t : DataType) {x : Expr},
    decTree (simplifyType t) = some x → ¬ Uses p t → exprUses p x = false
  | .prim q, x, h, hu => by
    rw [simplifyType, decTree] at h; cases h
    simp [exprUses, exprsUse, buf_uses hbuf, var_uses]
  | .vec t, x, h, hu => by
    rw [uses_vec] at hu
    rw [simplifyType, decTree] at h
    exact decSingle_uses hbuf h (fun g hg => tyUses_not hb hu hg) fun y hy => dec_uses hb hbuf hv t hy hu
  | .hashSet t, x, h, hu => by
    rw [uses_hashSet] at hu
    rw [simplifyType, decTree] at h
    exact decSingle_uses hbuf h (fun g hg => tyUses_not hb hu hg) fun y hy => dec_uses hb hbuf hv t hy hu
  | .option t, x, h, hu => by
    rw [uses_option] at hu
    rw [simplifyType, decTree] at h
    exact decSingle_uses hbuf h (fun g hg => tyUses_not hb hu hg) fun y hy => dec_uses hb hbuf hv t hy hu
  | .hashMap k v, x, h, hu => by
    rw [uses_hashMap, not_or] at hu
    rw [simplifyType, decTree] at h
    exact decPair_uses hbuf h (fun g hg => tyUses_not hb hu.1 hg) (fun y hy => dec_uses hb hbuf hv k hy hu.1)
      (fun g hg => tyUses_not hb hu.2 hg) fun y hy => dec_uses hb hbuf hv v hy hu.2
  | .nonZero (.prim q), x, h, hu => by
    rw [simplifyType, simplifyType, decTree] at h
    split at h
    · cases h; simp [exprUses, exprsUse, buf_uses hbuf, var_uses]
    · cases h
  | .nonZero (.vec t), x, h, hu => by
    rw [uses_nonZero, uses_vec, not_or] at hu
    rw [simplifyType, simplifyType, decTree] at h
    exact decSingle_uses hbuf h (fun g hg => tyUses_not hb hu.2 hg) fun y hy => dec_uses hb hbuf hv t hy hu.2
  | .nonZero (.hashSet t), x, h, hu => by
    rw [uses_nonZero, uses_hashSet, not_or] at hu
    rw [simplifyType, simplifyType, decTree] at h
    exact decSingle_uses hbuf h (fun g hg => tyUses_not hb hu.2 hg) fun y hy => dec_uses hb hbuf hv t hy hu.2
  | .nonZero (.hashMap k v), x, h, hu => by
    rw [uses_nonZero, uses_hashMap, not_or, not_or] at hu
    rw [simplifyType, simplifyType, decTree] at h
    exact decPair_uses hbuf h (fun g hg => tyUses_not hb hu.2.1 hg) (fun y hy => dec_uses hb hbuf hv k hy hu.2.1)
      (fun g hg => tyUses_not hb hu.2.2 hg) fun y hy => dec_uses hb hbuf hv v hy hu.2.2
  | .nonZero (.option _), g, h, hu | .nonZero (.nonZero _), g, h, hu | .nonZero (.tuple _ _), g, h, hu
  | .nonZero (.array _ _), g, h, hu | .nonZero (.external _ _ _ _), g, h, hu => by simp [simplifyType, decTree] at h
  | .tuple ts tr, x, h, hu => by
    rw [simplifyType, decTree] at h
    split at h
    · simp only [Option.bind_eq_bind, Option.bind_eq_some_iff, Option.pure_def, Option.some.injEq] at h
      obtain ⟨b, hb', rfl⟩ := h
      rw [uses_tuple, not_or] at hu
      have := decs_uses hb hbuf hv ts hb' (fun t ht h => hu.2 ⟨t, ht, h⟩)
      simp [exprUses, exprsUse, tysUse, decResults, stmtsUse_append, this, stmtsUse, stmtUses, var_uses, bytes_uses, named_uses,
        tyUses, hbuf]
    · cases h
  | .array t k, x, h, hu => by
    rw [simplifyType, decTree] at h
    rw [uses_array] at hu
    split at h
    · exact decSingle_uses hbuf h (fun g hg => tyUses_not hb hu hg) fun y hy => dec_uses hb hbuf hv t hy hu
    · cases h
  | .external path y ts tr, x, h, hu => by
    rw [simplifyType, decTree] at h
    simp only [Option.bind_eq_bind, Option.bind_eq_some_iff, Option.pure_def, Option.some.injEq] at h
    obtain ⟨g, hg, rfl⟩ := h
    have := tyUses_not hb hu (by rw [simplifyType]; exact hg)
    simp [exprUses, exprsUse, tysUse, decResults, stmtsUse, stmtUses, var_uses, bytes_uses, named_uses, this, isName, var, hv]
/-- On the elements of a tuple. -/
theorem decs_uses (hb : p ≠ n "big") (hbuf : p ≠ n "buf") (hv : p ≠ n "value" ∧ p ≠ n "tuple") : ∀ (ts : List DataType) {i : Nat}
    {ss : List Stmt}, decTrees i (simplifyTypes ts) = some ss → (∀ t ∈ ts, ¬ Uses p t) → stmtsUse p ss = false
  | [], i, ss, h, hu => by cases h; rfl
  | t :: ts, i, ss, h, hu => by
    rw [simplifyTypes, decTrees] at h
    simp only [Option.bind_eq_bind, Option.bind_eq_some_iff, Option.pure_def, Option.some.injEq] at h
    obtain ⟨y, hy, ys, hys, rfl⟩ := h
    have ih := dec_uses hb hbuf hv t hy (hu t List.mem_cons_self)
    have ihs := decs_uses hb hbuf hv ts hys (fun t ht => hu t (List.mem_cons_of_mem _ ht))
    simp [stmtsUse, stmtUses, exprUses, exprsUse, isName, var, hv, ih, ihs]
end

end

end Mabo.Go
