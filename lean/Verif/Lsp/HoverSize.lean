import Verif.Spec.Outline
import Verif.MetaLemmas
import Verif.VarintLemmas
/-! The overview of the size of a type. -/
namespace Mabo.Lsp
open Mabo.Spec Mabo.Spec.Doc

/-- Bounds only. -/
def Size.bounds (s : Size) : Meta.WireSize := ⟨s.min, s.max⟩

theorem sizePrim_bounds (p : Schema.Prim) : (sizePrim p).bounds = Meta.wirePrim p := by cases p <;> rfl

theorem minOf_bounds (o : Option Size) : Meta.minOf (o.map Size.bounds) = o.elim 0 Size.min := by cases o <;> rfl
theorem maxOf_bounds (o : Option Size) : Meta.maxOf (o.map Size.bounds) = o.bind Size.max := by cases o <;> rfl

mutual
theorem sizeTree_bounds : ∀ {t : Ast.DataType} {ty : Simplify.Ty} {u : Schema.Ty}, SameType t ty → Resolves t u →
    Meta.wireSize u = (sizeTree ty).map Size.bounds
  | _, _, _, .prim p, .prim _ => by rw [Meta.wireSize, sizeTree, Option.map_some, sizePrim_bounds]
  | _, _, _, .vec _, .vec _ => by rw [Meta.wireSize, sizeTree]; rfl
  | _, _, _, .hashMap _ _, .hashMap _ _ => by rw [Meta.wireSize, sizeTree]; rfl
  | _, _, _, .hashSet _, .hashSet _ => by rw [Meta.wireSize, sizeTree]; rfl
  | _, _, _, .option h, .option h' => by rw [Meta.wireSize, sizeTree, sizeTree_bounds h h', maxOf_bounds]; rfl
  | _, _, _, .nonZero h, .nonZero h' => by rw [Meta.wireSize, sizeTree, sizeTree_bounds h h', maxOf_bounds]; rfl
  | _, _, _, .array h, .array h' => by
    rw [Meta.wireSize, sizeTree, sizeTree_bounds h h', maxOf_bounds, minOf_bounds]; rfl
  | _, _, _, .tuple h, .tuple h' => by
    rw [Meta.wireSize, sizeTree, (sizeTrees_bounds h h').1, (sizeTrees_bounds h h').2]; rfl
  | _, _, _, .external _, .ext => by rw [Meta.wireSize, sizeTree]; rfl
  | _, _, _, .external _, .param => by rw [Meta.wireSize, sizeTree]; rfl
  | _, _, _, .external _, .inst => by rw [Meta.wireSize, sizeTree]; rfl
theorem sizeTrees_bounds : ∀ {ts : List Ast.DataType} {tys : List Simplify.Ty} {us : List Schema.Ty}, SameTypes ts tys →
    ResolvesAll ts us → Meta.minSum us = sumMin (sizeTrees tys) ∧ Meta.maxSum us = sumMax (sizeTrees tys)
  | _, _, _, .nil, .nil => by simp [Meta.minSum, Meta.maxSum, sizeTrees, sumMin, sumMax]
  | _, _, _, .cons h hs, .cons h' hs' => by
    have h1 := sizeTree_bounds h h'
    have h2 := sizeTrees_bounds hs hs'
    simp only [Meta.minSum, Meta.maxSum, sizeTrees, sumMin, sumMax, h1, h2.1, h2.2, minOf_bounds, maxOf_bounds, true_and]
    rfl
end

theorem groups_varintSize (n : BitVec 32) : Groups n.toNat (Meta.varintSize n.toNat) := by
  have e : BitVec.ofNat 32 n.toNat = n := by simp
  have key : ∀ k, Meta.varintSize n.toNat ≤ k + 1 ↔ n.toNat < 128 ^ (k + 1) := by
    intro k; rw [Meta.varintSize, e]; exact Varint.sizeU_le_iff n k
  have hpos : 0 < Meta.varintSize n.toNat := Varint.sizeU_pos _
  refine ⟨hpos, ?_, fun j hj h => ?_⟩
  · have := (key (Meta.varintSize n.toNat - 1)).1 (by omega)
    rwa [Nat.sub_add_cancel hpos] at this
  · have := (key (j - 1)).2 (by rwa [Nat.sub_add_cancel hj])
    omega

theorem printBounds_eq (label : String) (min : Nat) (max : Option Nat) :
    printBounds label min max = "**" ++ label ++ "** " ++ boundsText ⟨min, max⟩ := by
  unfold printBounds boundsText
  cases max with
  | none =>
    simp only [Option.elim_none, reduceCtorEq, if_false, String.append_assoc]
    rfl
  | some m =>
    by_cases h : min = m
    · subst h; simp
    · have : ¬ m = min := fun e => h e.symm
      simp [h, this]

theorem u64_text (indent : Nat) : printOption indent (some (.range "u64" 1 10)) = "**u64** `1..10`" := by
  simp only [printOption, Size.range, printSize, printInner, printBounds]
  rfl
theorem u64_fixed (indent k : Nat) : printOption indent (some (.fixed "u64" k)) = "**u64** `" ++ Nat.repr k ++ "`" := by
  simp only [printOption, Size.fixed, printSize, printInner, printBounds, if_true]
  rw [String.append_empty, ← String.append_assoc, ← String.append_assoc]
  rfl

theorem label_prim (p : Schema.Prim) : ∃ mn mx, sizePrim p = .mk (typeLabel (.prim p)) mn mx [] := by
  cases p <;> exact ⟨_, _, rfl⟩

mutual
theorem sizeText : ∀ {t : Ast.DataType} {ty : Simplify.Ty} (indent : Nat), SameType t ty →
    SizeText indent t (printOption indent (sizeTree ty))
  | _, _, indent, .prim p => by
    obtain ⟨mn, mx, e⟩ := label_prim p
    have hb := fun u => sizeTree_bounds (u := u) (SameType.prim p)
    simp only [sizeTree, e] at hb ⊢
    have e' : printOption indent (some (.mk (typeLabel (.prim p)) mn mx [])) =
        "**" ++ typeLabel (.prim p) ++ "** " ++ boundsText ⟨mn, mx⟩ ++ "" := by
      simp only [printOption, printSize, printBounds_eq, printInner]
    rw [e']
    exact .known (by simp) (fun u hu => hb u hu) .nil
  | _, _, indent, @SameType.vec t u h => by
    have hb := fun u => sizeTree_bounds (u := u) (SameType.vec h)
    have ih := sizeText (indent + 2) h
    simp only [sizeTree] at hb ⊢
    rw [printOption, printSize, printBounds_eq]
    refine .known (by simp) (fun u hu => hb u hu) ?_
    simp only [printInner, u64_text]
    exact .length .vec (.part ih .nil)
  | _, _, indent, @SameType.hashSet t u h => by
    have hb := fun u => sizeTree_bounds (u := u) (SameType.hashSet h)
    have ih := sizeText (indent + 2) h
    simp only [sizeTree] at hb ⊢
    rw [printOption, printSize, printBounds_eq]
    refine .known (by simp) (fun u hu => hb u hu) ?_
    simp only [printInner, u64_text]
    exact .length .hashSet (.part ih .nil)
  | _, _, indent, @SameType.hashMap k v k' v' h h' => by
    have hb := fun u => sizeTree_bounds (u := u) (SameType.hashMap h h')
    have ih := sizeText (indent + 2) h
    have ih' := sizeText (indent + 2) h'
    simp only [sizeTree] at hb ⊢
    rw [printOption, printSize, printBounds_eq]
    refine .known (by simp) (fun u hu => hb u hu) ?_
    simp only [printInner, u64_text]
    exact .length .hashMap (.part ih (.part ih' .nil))
  | _, _, indent, @SameType.option t u h => by
    have hb := fun u => sizeTree_bounds (u := u) (SameType.option h)
    have ih := sizeText (indent + 2) h
    simp only [sizeTree] at hb ⊢
    rw [printOption, printSize, printBounds_eq]
    refine .known (by simp) (fun u hu => hb u hu) ?_
    simp only [printInner]
    exact .part ih .nil
  | _, _, indent, @SameType.nonZero t u h => by
    have hb := fun u => sizeTree_bounds (u := u) (SameType.nonZero h)
    have ih := sizeText (indent + 2) h
    simp only [sizeTree] at hb ⊢
    rw [printOption, printSize, printBounds_eq]
    refine .known (by simp) (fun u hu => hb u hu) ?_
    simp only [printInner]
    exact .part ih .nil
  | _, _, indent, @SameType.array t u n h => by
    have hb := fun u => sizeTree_bounds (u := u) (SameType.array (n := n) h)
    have ih := sizeText (indent + 2) h
    simp only [sizeTree] at hb ⊢
    rw [printOption, printSize, printBounds_eq]
    refine .known (by simp) (fun u hu => hb u hu) ?_
    simp only [printInner, u64_fixed]
    exact .length (.array (groups_varintSize n)) (.part ih .nil)
  | _, _, indent, @SameType.tuple ts us tr h => by
    have hb := fun u => sizeTree_bounds (u := u) (SameType.tuple (tr := tr) h)
    have ih := sizeTexts indent 0 (.tuple ts tr) h
    simp only [sizeTree] at hb ⊢
    rw [printOption, printSize, printBounds_eq]
    exact .known (by simp) (fun u hu => hb u hu) ih
  | _, _, indent, .external _ => by rw [sizeTree, printOption]; exact .unknown
theorem sizeTexts : ∀ {ts : List Ast.DataType} {tys : List Simplify.Ty} (indent k : Nat) (whole : Ast.DataType), SameTypes ts tys →
    BreakdownText indent whole ((ts.zipIdx k).map fun x => (Nat.repr x.2, some x.1))
      (printInner indent (((sizeTrees tys).zipIdx k).map fun x => (Nat.repr x.2, x.1)))
  | _, _, _, _, _, .nil => by
    simp only [sizeTrees, List.zipIdx_nil, List.map_nil, printInner]
    exact .nil
  | _, _, indent, k, whole, .cons h hs => by
    have ih := sizeText (indent + 2) h
    have ihs := sizeTexts indent (k + 1) whole hs
    simp only [sizeTrees, List.zipIdx_cons, List.map_cons, printInner]
    exact .part ih ihs
end

end Mabo.Lsp
