import Verif.Go.FileTree
import Verif.Spec.GoRules
import Verif.Spec.GoBuild
/-! Which rules of Go the emitted code breaks. -/
namespace Mabo.Go
open Mabo.Simplify Mabo.Spec Mabo.Spec.GoRules Mabo.Spec.GoBuild
open Mabo.Ast (DataType)
open Mabo.Parse (Text)

/-! ### Types -/

theorem demand_nil {c : Bool} {p : Problem} : demand c p = [] ↔ c = true := by cases c <;> simp [demand]

theorem tysProblems_nil {Γ : GoRules.Scope} {ts : List GTy} : tysProblems Γ ts = [] ↔ ∀ t ∈ ts, tyProblems Γ t = [] := by
  induction ts with
  | nil => simp [tysProblems]
  | cons t ts ih => simp [tysProblems, ih]

/-- Trees of all types of a list. -/
theorem defTrees_mem : ∀ {ts : List DataType} {gs : List GTy}, defTrees (simplifyTypes ts) = some gs →
    ∀ t ∈ ts, ∃ g ∈ gs, defTree (simplifyType t) = some g
  | [], gs, h, t, ht => by cases ht
  | a :: as, gs, h, t, ht => by
    rw [simplifyTypes, defTrees] at h
    simp only [Option.bind_eq_bind, Option.bind_eq_some_iff, Option.pure_def, Option.some.injEq] at h
    obtain ⟨g, hg, gs', hgs, rfl⟩ := h
    rcases List.mem_cons.1 ht with rfl | ht
    · exact ⟨g, List.mem_cons_self, hg⟩
    · obtain ⟨g', h1, h2⟩ := defTrees_mem hgs t ht
      exact ⟨g', List.mem_cons_of_mem _ h1, h2⟩

/-- The parts of a type are valid if the type is. -/
theorem bare_valid {Γ : GoRules.Scope} {u t : DataType} (h : Bare u t) : ∀ {g : GTy}, defTree (simplifyType t) = some g →
    tyProblems Γ g = [] → ∃ g', defTree (simplifyType u) = some g' ∧ tyProblems Γ g' = [] := by
  induction h with
  | here => intro g h1 h2; exact ⟨g, h1, h2⟩
  | vec _ ih | option _ ih | array _ ih =>
    intro g h1 h2
    simp only [simplifyType, defTree, Option.bind_eq_bind, Option.bind_eq_some_iff, Option.pure_def, Option.some.injEq] at h1
    obtain ⟨g1, h1, rfl⟩ := h1
    rw [tyProblems] at h2
    exact ih h1 h2
  | hashSet _ ih =>
    intro g h1 h2
    simp only [simplifyType, defTree, Option.bind_eq_bind, Option.bind_eq_some_iff, Option.pure_def, Option.some.injEq] at h1
    obtain ⟨g1, h1, rfl⟩ := h1
    simp only [tyProblems, List.append_eq_nil_iff] at h2
    exact ih h1 h2.1.2
  | hashMapKey _ ih =>
    intro g h1 h2
    simp only [simplifyType, defTree, Option.bind_eq_bind, Option.bind_eq_some_iff, Option.pure_def, Option.some.injEq] at h1
    obtain ⟨g1, h1, g3, h3, rfl⟩ := h1
    simp only [tyProblems, List.append_eq_nil_iff] at h2
    exact ih h1 h2.1.2
  | hashMapValue _ ih =>
    intro g h1 h2
    simp only [simplifyType, defTree, Option.bind_eq_bind, Option.bind_eq_some_iff, Option.pure_def, Option.some.injEq] at h1
    obtain ⟨g1, h1, g3, h3, rfl⟩ := h1
    simp only [tyProblems, List.append_eq_nil_iff] at h2
    exact ih h3 h2.2
  | tuple hm _ ih =>
    intro g h1 h2
    simp only [simplifyType, defTree, Option.bind_eq_bind, Option.bind_eq_some_iff, Option.pure_def, Option.some.injEq] at h1
    obtain ⟨gs, h1, rfl⟩ := h1
    simp only [tyProblems, List.append_eq_nil_iff] at h2
    obtain ⟨g', hg, hd⟩ := defTrees_mem h1 _ hm
    exact ih hd (tysProblems_nil.1 h2.2 g' hg)
  | argument hm _ ih =>
    intro g h1 h2
    simp only [simplifyType, defTree, Option.bind_eq_bind, Option.bind_eq_some_iff, Option.pure_def] at h1
    obtain ⟨gs, h1, h3⟩ := h1
    obtain ⟨g', hg, hd⟩ := defTrees_mem h1 _ hm
    have : tysProblems Γ gs = [] := by
      split at h3 <;> cases h3 <;> simp only [tyProblems, List.append_eq_nil_iff] at h2 <;> exact h2.2
    exact ih hd (tysProblems_nil.1 this g' hg)
  | nonZeroVec _ ih | nonZeroSet _ ih =>
    intro g h1 h2
    simp only [simplifyType, defTree, Option.bind_eq_bind, Option.bind_eq_some_iff, Option.pure_def, Option.some.injEq] at h1
    obtain ⟨g1, h1, rfl⟩ := h1
    simp only [tyProblems, tysProblems, List.append_eq_nil_iff] at h2
    exact ih h1 h2.2.1
  | nonZeroKey _ ih =>
    intro g h1 h2
    simp only [simplifyType, defTree, Option.bind_eq_bind, Option.bind_eq_some_iff, Option.pure_def, Option.some.injEq] at h1
    obtain ⟨g1, h1, g3, h3, rfl⟩ := h1
    simp only [tyProblems, tysProblems, List.append_eq_nil_iff] at h2
    exact ih h1 h2.2.1
  | nonZeroValue _ ih =>
    intro g h1 h2
    simp only [simplifyType, defTree, Option.bind_eq_bind, Option.bind_eq_some_iff, Option.pure_def, Option.some.injEq] at h1
    obtain ⟨g1, h1, g3, h3, rfl⟩ := h1
    simp only [tyProblems, tysProblems, List.append_eq_nil_iff] at h2
    exact ih h3 h2.2.2.1

theorem meaning_mem {Γ : GoRules.Scope} {x : Text} {m : Meaning} (h : meaning Γ x = some m) : (x, m) ∈ Γ := by
  simp only [meaning, Option.map_eq_some_iff] at h
  obtain ⟨⟨y, m'⟩, h1, rfl⟩ := h
  have := List.find?_some h1
  simp only [decide_eq_true_eq] at this
  subst this
  exact List.mem_of_find?_eq_some h1

theorem isPackage_eq {m : Option Meaning} : isPackage m = true ↔ m = some .package := by
  rcases m with _ | _ | _ | _ | _ | _ <;> simp [isPackage]

/-- Packages are imported. -/
theorem package_imported {f : File} {gs : List Text} {p : Text}
    (h : isPackage (meaning (bindTypes gs (fileScope f)) p) = true) : p ∈ f.imports.map (·.1) := by
  have := meaning_mem (isPackage_eq.1 h)
  simp only [bindTypes, fileScope, List.mem_append, List.mem_map, Prod.mk.injEq, List.mem_flatMap] at this
  rcases this with ⟨_, _, _, h⟩ | ((⟨i, hi, rfl, _⟩ | ⟨d, _, hd⟩) | ⟨_, _, _, h⟩) | ⟨_, _, _, h⟩
  · cases h
  · exact List.mem_map_of_mem hi
  · cases d <;> simp [declared] at hd
  · cases h
  · cases h

theorem comparable_iff : ∀ {k : DataType} {g : GTy}, defTree (simplifyType k) = some g → (comparable g = true ↔ Comparable k)
  | .prim p, g, h => by
    rw [simplifyType, defTree] at h
    cases h
    cases p <;> simp [primTree, named, byteSlice, comparable, Comparable]
  | .vec t, g, h | .hashSet t, g, h | .option t, g, h => by
    simp only [simplifyType, defTree, Option.bind_eq_bind, Option.bind_eq_some_iff, Option.pure_def, Option.some.injEq] at h
    obtain ⟨g1, _, rfl⟩ := h
    simp [comparable, Comparable]
  | .hashMap k v, g, h => by
    simp only [simplifyType, defTree, Option.bind_eq_bind, Option.bind_eq_some_iff, Option.pure_def, Option.some.injEq] at h
    obtain ⟨g1, _, g2, _, rfl⟩ := h
    simp [comparable, Comparable]
  | .array t m, g, h => by
    simp only [simplifyType, defTree, Option.bind_eq_bind, Option.bind_eq_some_iff, Option.pure_def, Option.some.injEq] at h
    obtain ⟨g1, h, rfl⟩ := h
    simp only [comparable, Comparable]
    exact comparable_iff h
  | .tuple ts _, g, h => by
    simp only [simplifyType, defTree, Option.bind_eq_bind, Option.bind_eq_some_iff, Option.pure_def, Option.some.injEq] at h
    obtain ⟨g1, _, rfl⟩ := h
    simp [comparable, Comparable]
  | .external path name args _, g, h => by
    simp only [simplifyType, defTree, Option.bind_eq_bind, Option.bind_eq_some_iff, Option.pure_def] at h
    obtain ⟨g1, _, h⟩ := h
    split at h <;> cases h <;> simp [comparable, Comparable]
  | .nonZero t, g, h => by
    have : ∃ p x ts, g = .qual p x ts := by
      cases t with
      | prim p => rw [simplifyType, simplifyType, defTree] at h; cases p <;> simp [nzPrimTree] at h <;> exact ⟨_, _, _, h.symm⟩
      | vec t | hashSet t =>
        simp only [simplifyType, defTree, Option.bind_eq_bind, Option.bind_eq_some_iff, Option.pure_def, Option.some.injEq] at h
        obtain ⟨g1, _, rfl⟩ := h
        exact ⟨_, _, _, rfl⟩
      | hashMap k v =>
        simp only [simplifyType, defTree, Option.bind_eq_bind, Option.bind_eq_some_iff, Option.pure_def, Option.some.injEq] at h
        obtain ⟨g1, _, g2, _, rfl⟩ := h
        exact ⟨_, _, _, rfl⟩
      | _ => simp [simplifyType, defTree] at h
    obtain ⟨p, x, ts, rfl⟩ := this
    simp [comparable, Comparable]

/-! ### Parts of expressions -/

theorem exprsProblems_nil {ds : List Decl} {Γ : GoRules.Scope} {es : List Expr} :
    exprsProblems ds Γ es = [] ↔ ∀ e ∈ es, exprProblems ds Γ e = [] := by
  induction es with
  | nil => simp [exprsProblems]
  | cons t ts ih => simp [exprsProblems, ih]

/-- The size of the elements of a tuple. -/
theorem sizeTrees_mem {ds : List Decl} : ∀ {ts : List DataType} {e : Expr} {i : Nat} {Γ : GoRules.Scope} {k : Nat} {ss : List Stmt} {tail : List Stmt},
    sizeTrees e i (simplifyTypes ts) = some ss → stmtsProblems ds Γ k (ss ++ tail) = [] →
    ∀ t ∈ ts, ∃ e' x, sizeTree e' (simplifyType t) = some x ∧ exprProblems ds Γ x = []
  | [], e, i, Γ, k, ss, tail, h, hp, t, ht => by cases ht
  | a :: as, e, i, Γ, k, ss, tail, h, hp, t, ht => by
    rw [simplifyTypes, sizeTrees] at h
    simp only [Option.bind_eq_bind, Option.bind_eq_some_iff, Option.pure_def, Option.some.injEq] at h
    obtain ⟨x, hx, ss', hs, rfl⟩ := h
    simp only [List.cons_append, stmtsProblems, stmtProblems, behind, List.append_eq_nil_iff] at hp
    rcases List.mem_cons.1 ht with rfl | ht
    · exact ⟨_, x, hx, hp.1.2⟩
    · exact sizeTrees_mem hs hp.2 t ht

/-- A scope with more names, of which none are types or packages. -/
def Ext (Γ Γ' : GoRules.Scope) : Prop := ∀ x m, (x, m) ∈ Γ' → m = .type ∨ m = .package → (x, m) ∈ Γ

theorem Ext.refl (Γ : GoRules.Scope) : Ext Γ Γ := fun _ _ h _ => h

theorem Ext.trans {Γ Γ' Γ'' : GoRules.Scope} (h : Ext Γ Γ') (h' : Ext Γ' Γ'') : Ext Γ Γ'' := fun x m hm ht => h x m (h' x m hm ht) ht

theorem ext_bind (ps : List (Text × GTy)) (Γ : GoRules.Scope) : Ext Γ (bind ps Γ) := fun x m hm ht => by
  simp only [GoRules.bind, List.mem_append, List.mem_map, Prod.mk.injEq] at hm
  rcases hm with ⟨_, _, _, rfl⟩ | hm
  · simp at ht
  · exact hm

theorem ext_bindNames (xs : List Text) (Γ : GoRules.Scope) : Ext Γ (bindNames xs Γ) := fun x m hm ht => by
  simp only [bindNames, List.mem_append, List.mem_map, Prod.mk.injEq] at hm
  rcases hm with ⟨_, _, _, rfl⟩ | hm
  · simp at ht
  · exact hm

theorem ext_behind (s : Stmt) (Γ : GoRules.Scope) : Ext Γ (behind Γ s) := by
  cases s with
  | define xs e => exact ext_bindNames xs Γ
  | varDecl x t =>
    intro y m hm ht
    rcases List.mem_cons.1 hm with h | hm
    · cases h; simp at ht
    · exact hm
  | _ => exact Ext.refl Γ

/-- Behind the elements of a tuple, `r2`, `err` and further names are known. -/
theorem decTrees_mem {ds : List Decl} : ∀ {ts : List DataType} {i : Nat} {Γ : GoRules.Scope} {k : Nat} {ss : List Stmt} {tail : List Stmt},
    decTrees i (simplifyTypes ts) = some ss → stmtsProblems ds Γ k (ss ++ tail) = [] →
    ∀ t ∈ ts, ∃ Γ' x, Ext Γ Γ' ∧ decTree (simplifyType t) = some x ∧ exprProblems ds Γ' x = []
  | [], i, Γ, k, ss, tail, h, hp, t, ht => by cases ht
  | a :: as, i, Γ, k, ss, tail, h, hp, t, ht => by
    rw [simplifyTypes, decTrees] at h
    simp only [Option.bind_eq_bind, Option.bind_eq_some_iff, Option.pure_def, Option.some.injEq] at h
    obtain ⟨x, hx, ss', hs, rfl⟩ := h
    simp only [List.cons_append, stmtsProblems, stmtProblems, behind, List.append_eq_nil_iff] at hp
    rcases List.mem_cons.1 ht with rfl | ht
    · exact ⟨Γ, x, Ext.refl Γ, hx, hp.1⟩
    · obtain ⟨Γ', y, he, h⟩ := decTrees_mem hs hp.2.2.2.2 t ht
      exact ⟨Γ', y, (ext_bindNames _ Γ).trans he, h⟩

/-- Types that are not read and measured differently below `non_zero`. -/
def Own' (u : DataType) : Prop := (∃ ts tr, u = .tuple ts tr) ∨ ∃ p n gs tr, u = .external p n gs tr

theorem sizeFunc_problems {ds : List Decl} {Γ : GoRules.Scope} {x : String} {g : GTy} {e : Expr}
    (h : exprProblems ds Γ (sizeFunc x g e) = []) : exprProblems ds (bind [(n x, g)] Γ) e = [] := by
  simp only [sizeFunc, exprProblems, returns, stmtsProblems, stmtProblems, exprsProblems, List.append_eq_nil_iff] at h
  exact h.2.1.1.1

theorem decFunc_problems {ds : List Decl} {Γ : GoRules.Scope} {g : GTy} {e : Expr}
    (h : exprProblems ds Γ (decFunc g e) = []) : exprProblems ds (bind [(n "r", byteSlice)] Γ) e = [] := by
  simp only [decFunc, exprProblems, returns, stmtsProblems, stmtProblems, exprsProblems, List.append_eq_nil_iff] at h
  exact h.2.1.1.1

theorem size_own {ds : List Decl} {u t : DataType} (h : OwnPiece u t) :
    (∀ {e x Γ}, sizeTree e (simplifyType t) = some x → exprProblems ds Γ x = [] →
      ∃ e' x' Γ', sizeTree e' (simplifyType u) = some x' ∧ exprProblems ds Γ' x' = []) := by
  induction h with
  | here => intro e x Γ h1 h2; exact ⟨e, x, Γ, h1, h2⟩
  | vec _ ih | hashSet _ ih | option _ ih =>
    intro e x Γ h1 h2
    simp only [simplifyType, sizeTree, Option.bind_eq_bind, Option.bind_eq_some_iff, Option.pure_def, Option.some.injEq] at h1
    obtain ⟨g, hg, y, hy, rfl⟩ := h1
    simp only [exprProblems, exprsProblems, List.append_eq_nil_iff] at h2
    exact ih hy (sizeFunc_problems h2.1.2.2.1)
  | array _ ih =>
    intro e x Γ h1 h2
    rw [simplifyType, sizeTree] at h1
    split at h1
    case isFalse => cases h1
    simp only [Option.bind_eq_bind, Option.bind_eq_some_iff, Option.pure_def, Option.some.injEq] at h1
    obtain ⟨g, hg, y, hy, rfl⟩ := h1
    simp only [exprProblems, exprsProblems, List.append_eq_nil_iff] at h2
    exact ih hy (sizeFunc_problems h2.1.2.2.1)
  | hashMapKey _ ih =>
    intro e x Γ h1 h2
    simp only [simplifyType, sizeTree, Option.bind_eq_bind, Option.bind_eq_some_iff, Option.pure_def, Option.some.injEq] at h1
    obtain ⟨g, hg, g', hg', y, hy, y', hy', rfl⟩ := h1
    simp only [exprProblems, exprsProblems, List.append_eq_nil_iff] at h2
    exact ih hy (sizeFunc_problems h2.1.2.1)
  | hashMapValue _ ih =>
    intro e x Γ h1 h2
    simp only [simplifyType, sizeTree, Option.bind_eq_bind, Option.bind_eq_some_iff, Option.pure_def, Option.some.injEq] at h1
    obtain ⟨g, hg, g', hg', y, hy, y', hy', rfl⟩ := h1
    simp only [exprProblems, exprsProblems, List.append_eq_nil_iff] at h2
    exact ih hy' (sizeFunc_problems h2.1.2.2.1)
  | nonZero _ ih =>
    intro e x Γ h1 h2
    rw [simplifyType, sizeTree] at h1
    split at h1
    case isFalse => cases h1
    exact ih h1 h2
  | tuple hm _ ih =>
    intro e x Γ h1 h2
    rw [simplifyType, sizeTree] at h1
    split at h1
    case isFalse => cases h1
    simp only [Option.bind_eq_bind, Option.bind_eq_some_iff, Option.pure_def, Option.some.injEq] at h1
    obtain ⟨ss, hs, rfl⟩ := h1
    simp [exprProblems, callProblems, demand] at h2

/-- A tuple in a field is measured with too many arguments. -/
theorem size_tuple {ds : List Decl} {t : DataType} {ts : List DataType} {tr : Bool} (h : OwnPiece (.tuple ts tr) t) {e x : Expr}
    {Γ : GoRules.Scope} (hx : sizeTree e (simplifyType t) = some x) : exprProblems ds Γ x ≠ [] := by
  intro hp
  obtain ⟨e', x', Γ', h1, h2⟩ := size_own (ds := ds) h hx hp
  rw [simplifyType, sizeTree] at h1
  split at h1
  case isFalse => cases h1
  simp only [Option.bind_eq_bind, Option.bind_eq_some_iff, Option.pure_def, Option.some.injEq] at h1
  obtain ⟨ss, hs, rfl⟩ := h1
  simp [exprProblems, callProblems, demand] at h2

theorem decSingle_problems {ds : List Decl} {Γ : GoRules.Scope} {f : Text} {g : Option GTy} {e : Option Expr} {x : Expr}
    (h : decSingleTree f g e = some x) (hp : exprProblems ds Γ x = []) :
    ∃ y Γ', Ext Γ Γ' ∧ e = some y ∧ exprProblems ds Γ' y = [] := by
  simp only [decSingleTree, Option.bind_eq_bind, Option.bind_eq_some_iff, Option.pure_def, Option.some.injEq] at h
  obtain ⟨g, hg, y, hy, rfl⟩ := h
  simp only [exprProblems, exprsProblems, List.append_eq_nil_iff] at hp
  exact ⟨y, _, ext_bind _ Γ, hy, decFunc_problems hp.1.2.2.1⟩

theorem decPair_problems {ds : List Decl} {Γ : GoRules.Scope} {f : Text} {g g' : Option GTy} {d e : Option Expr} {x : Expr}
    (h : decPairTree f g g' d e = some x) (hp : exprProblems ds Γ x = []) :
    (∃ y Γ', Ext Γ Γ' ∧ d = some y ∧ exprProblems ds Γ' y = []) ∧ ∃ y Γ', Ext Γ Γ' ∧ e = some y ∧ exprProblems ds Γ' y = [] := by
  simp only [decPairTree, Option.bind_eq_bind, Option.bind_eq_some_iff, Option.pure_def, Option.some.injEq] at h
  obtain ⟨g, hg, g', hg', y, hy, y', hy', rfl⟩ := h
  simp only [exprProblems, exprsProblems, List.append_eq_nil_iff] at hp
  exact ⟨⟨y, _, ext_bind _ Γ, hy, decFunc_problems hp.1.2.1⟩, y', _, ext_bind _ Γ, hy', decFunc_problems hp.1.2.2.1⟩

theorem dec_own {ds : List Decl} {u t : DataType} (h : OwnPiece u t) (hu : Own' u) :
    (∀ {x Γ}, decTree (simplifyType t) = some x → exprProblems ds Γ x = [] →
      ∃ x' Γ', Ext Γ Γ' ∧ decTree (simplifyType u) = some x' ∧ exprProblems ds Γ' x' = []) ∧
    (∀ {x Γ}, decTree (.nonZero (simplifyType t)) = some x → exprProblems ds Γ x = [] →
      ∃ x' Γ', Ext Γ Γ' ∧ decTree (simplifyType u) = some x' ∧ exprProblems ds Γ' x' = []) := by
  induction h with
  | here =>
    refine ⟨fun {x Γ} h1 h2 => ⟨x, Γ, Ext.refl Γ, h1, h2⟩, fun {x Γ} h1 h2 => ?_⟩
    rcases hu with ⟨ts, tr, rfl⟩ | ⟨p, m, gs, tr, rfl⟩ <;> rw [simplifyType, decTree] at h1 <;>
      first | cases h1 | (intros; simp)
  | vec _ ih | hashSet _ ih =>
    constructor
    · intro x Γ h1 h2
      rw [simplifyType, decTree] at h1
      obtain ⟨y, Γ', he, hy, hp⟩ := decSingle_problems h1 h2
      obtain ⟨x', Γ'', he', h⟩ := ih.1 hy hp
      exact ⟨x', Γ'', he.trans he', h⟩
    · intro x Γ h1 h2
      rw [simplifyType, decTree] at h1
      obtain ⟨y, Γ', he, hy, hp⟩ := decSingle_problems h1 h2
      obtain ⟨x', Γ'', he', h⟩ := ih.1 hy hp
      exact ⟨x', Γ'', he.trans he', h⟩
  | option _ ih =>
    constructor
    · intro x Γ h1 h2
      rw [simplifyType, decTree] at h1
      obtain ⟨y, Γ', he, hy, hp⟩ := decSingle_problems h1 h2
      obtain ⟨x', Γ'', he', h⟩ := ih.1 hy hp
      exact ⟨x', Γ'', he.trans he', h⟩
    · intro x Γ h1 h2
      rw [simplifyType, decTree] at h1 <;> first | cases h1 | (intros; simp)
  | array _ ih =>
    constructor
    · intro x Γ h1 h2
      rw [simplifyType, decTree] at h1
      split at h1
      case isFalse => cases h1
      obtain ⟨y, Γ', he, hy, hp⟩ := decSingle_problems h1 h2
      obtain ⟨x', Γ'', he', h⟩ := ih.1 hy hp
      exact ⟨x', Γ'', he.trans he', h⟩
    · intro x Γ h1 h2
      rw [simplifyType, decTree] at h1 <;> first | cases h1 | (intros; simp)
  | hashMapKey _ ih =>
    constructor
    · intro x Γ h1 h2
      rw [simplifyType, decTree] at h1
      obtain ⟨⟨y, Γ', he, hy, hp⟩, _⟩ := decPair_problems h1 h2
      obtain ⟨x', Γ'', he', h⟩ := ih.1 hy hp
      exact ⟨x', Γ'', he.trans he', h⟩
    · intro x Γ h1 h2
      rw [simplifyType, decTree] at h1
      obtain ⟨⟨y, Γ', he, hy, hp⟩, _⟩ := decPair_problems h1 h2
      obtain ⟨x', Γ'', he', h⟩ := ih.1 hy hp
      exact ⟨x', Γ'', he.trans he', h⟩
  | hashMapValue _ ih =>
    constructor
    · intro x Γ h1 h2
      rw [simplifyType, decTree] at h1
      obtain ⟨_, ⟨y, Γ', he, hy, hp⟩⟩ := decPair_problems h1 h2
      obtain ⟨x', Γ'', he', h⟩ := ih.1 hy hp
      exact ⟨x', Γ'', he.trans he', h⟩
    · intro x Γ h1 h2
      rw [simplifyType, decTree] at h1
      obtain ⟨_, ⟨y, Γ', he, hy, hp⟩⟩ := decPair_problems h1 h2
      obtain ⟨x', Γ'', he', h⟩ := ih.1 hy hp
      exact ⟨x', Γ'', he.trans he', h⟩
  | nonZero _ ih =>
    constructor
    · intro x Γ h1 h2
      rw [simplifyType] at h1
      exact ih.2 h1 h2
    · intro x Γ h1 h2
      rw [simplifyType, decTree] at h1 <;> first | cases h1 | (intros; simp)
  | tuple hm _ ih =>
    constructor
    · intro x Γ h1 h2
      rw [simplifyType, decTree] at h1
      split at h1
      case isFalse => cases h1
      simp only [Option.bind_eq_bind, Option.bind_eq_some_iff, Option.pure_def, Option.some.injEq] at h1
      obtain ⟨ss, hs, rfl⟩ := h1
      simp only [exprProblems, List.append_eq_nil_iff] at h2
      obtain ⟨Γ', x', he, hx', hp'⟩ := decTrees_mem hs h2.1.1.2 _ hm
      obtain ⟨x'', Γ'', he', h⟩ := ih.1 hx' hp'
      exact ⟨x'', Γ'', ((ext_bind _ Γ).trans he).trans he', h⟩
    · intro x Γ h1 h2
      rw [simplifyType, decTree] at h1 <;> first | cases h1 | (intros; simp)

end Mabo.Go
