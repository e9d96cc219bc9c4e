import Verif.Go.Tree
/-! The text of the trees of `Go/Tree.lean` is the text that the generator writes (`Go/Render.lean`). -/
namespace Mabo.Go
open Mabo.Simplify
open Mabo.Schema (Prim FieldKind)
open Mabo.Parse (Text Std printNat)

theorem defPrim_text (p : Prim) : (defPrim p).toList = (primTree p).text := by cases p <;> rfl

theorem defNonZero_text (p : Prim) : defNonZero p = (nzPrimTree p).map GTy.text := by cases p <;> rfl

theorem sepText_cons (s x : Text) (xs : List Text) :
    sepText s (x :: xs) = x ++ (xs.map (s ++ ·)).flatten := by
  induction xs generalizing x with
  | nil => simp [sepText]
  | cons y ys ih =>
    have : sepText s (x :: y :: ys) = x ++ s ++ sepText s (y :: ys) := rfl
    rw [this, ih]; simp

theorem texts_map (ts : List GTy) : GTy.texts ts = ts.map GTy.text := by
  induction ts with
  | nil => rfl
  | cons t ts ih => rw [GTy.texts, ih]; rfl

mutual
theorem defTy_text : ∀ t, defTy t = (defTree t).map GTy.text
  | .prim p => by simp only [defTy, defTree, l, defPrim_text, Option.map_some]
  | .vec t => by
    rw [defTy, defTree, defTy_text t]
    cases defTree t <;> simp [fmt, l, GTy.text, chars]
  | .hashMap k v => by
    rw [defTy, defTree, defTy_text k, defTy_text v]
    cases defTree k <;> cases defTree v <;> simp [fmt, l, GTy.text, chars]
  | .hashSet t => by
    rw [defTy, defTree, defTy_text t]
    cases defTree t <;> simp [fmt, l, GTy.text, chars]
  | .option t => by
    rw [defTy, defTree, defTy_text t]
    cases defTree t <;> simp [fmt, l, GTy.text, chars]
  | .nonZero (.prim p) => by rw [defTy, defTree, defNonZero_text]
  | .nonZero (.vec t) => by
    rw [defTy, defTree, defTy_text t]
    cases defTree t <;> simp [fmt, l, GTy.text, chars, GTy.texts, sepText, argText, n]
  | .nonZero (.hashMap k v) => by
    rw [defTy, defTree, defTy_text k, defTy_text v]
    cases defTree k <;> cases defTree v <;> simp [fmt, l, GTy.text, chars, GTy.texts, sepText, comma, argText, n]
  | .nonZero (.hashSet t) => by
    rw [defTy, defTree, defTy_text t]
    cases defTree t <;> simp [fmt, l, GTy.text, chars, GTy.texts, sepText, argText, n]
  | .nonZero (.option t) => rfl
  | .nonZero (.nonZero t) => rfl
  | .nonZero (.tuple ts) => rfl
  | .nonZero (.array t _) => rfl
  | .nonZero (.external _ _ _) => rfl
  | .tuple ts => by
    rw [defTy, defTree]
    obtain ⟨h1, h2⟩ := defTys_text ts
    cases hd : defTrees ts with
    | none => 
      cases ts with
      | nil => rw [defTrees] at hd; cases hd
      | cons t ts => simp [brackets, h1, hd, fmt, l]
    | some gs =>
      cases ts with
      | nil => rw [defTrees] at hd; cases hd; simp [brackets, fmt, l, GTy.text, chars, argText, GTy.texts, n]
      | cons t ts =>
        have : gs ≠ [] := by
          rintro rfl
          rw [defTrees] at hd
          cases h3 : defTree t <;> cases h4 : defTrees ts <;> simp [h3, h4] at hd
        obtain ⟨g, gs, rfl⟩ := List.exists_cons_of_ne_nil this
        simp [brackets, h1, hd, fmt, l, GTy.text, chars, argText, GTy.texts, n]
  | .array t _ => by
    rw [defTy, defTree, defTy_text t]
    cases defTree t <;> simp [fmt, l, GTy.text, chars]
  | .external path name generics => by
    rw [defTy, defTree]
    obtain ⟨h1, h2⟩ := defTys_text generics
    cases hd : defTrees generics with
    | none => 
      cases generics with
      | nil => rw [defTrees] at hd; cases hd
      | cons t ts => cases path.getLast? <;> simp [brackets, h1, hd, fmt, l, up]
    | some gs =>
      cases generics with
      | nil => rw [defTrees] at hd; cases hd; cases path.getLast? <;> simp [brackets, fmt, l, up, GTy.text, chars, argText, GTy.texts, n]
      | cons t ts =>
        have : gs ≠ [] := by
          rintro rfl
          rw [defTrees] at hd
          cases h3 : defTree t <;> cases h4 : defTrees ts <;> simp [h3, h4] at hd
        obtain ⟨g, gs, rfl⟩ := List.exists_cons_of_ne_nil this
        cases path.getLast? <;> simp [brackets, h1, hd, fmt, l, up, GTy.text, chars, argText, GTy.texts, n]
theorem defTys_text : ∀ ts, defTys true ts = (defTrees ts).map (fun gs => sepText comma (GTy.texts gs)) ∧
    defTys false ts = (defTrees ts).map (fun gs => (gs.map (comma ++ GTy.text ·)).flatten)
  | [] => ⟨rfl, rfl⟩
  | t :: ts => by
    obtain ⟨h1, h2⟩ := defTys_text ts
    rw [defTys, defTys, defTrees, h2, defTy_text t]
    constructor <;> cases defTree t <;> cases defTrees ts <;>
      simp [fmt, l, GTy.texts, sepText_cons, texts_map, comma, Function.comp_def]
end

/-! ### Encoding and size -/

/-- The text does not depend on the place. -/
def Plain (e : Expr) (x : Text) : Prop := ∀ i, e.text i = x

theorem plain_var (x : String) : Plain (var x) x.toList := fun i => by rw [var, Expr.text]

theorem plain_id (x : Text) : Plain (.id x) x := fun i => by rw [Expr.text]

theorem plain_sel {e : Expr} {x : Text} (h : Plain e x) (y : Text) : Plain (.sel e y) (x ++ ['.'] ++ y) := fun i => by
  rw [Expr.text, h i]

theorem plain_get {e : Expr} {x : Text} (h : Plain e x) : Plain (.call (.sel e (n "Get")) []) (x ++ ".Get()".toList) := fun i => by
  rw [Expr.text, plain_sel h, Expr.texts]; simp [sepText, n]

theorem byteSlice_text : byteSlice.text = "[]byte".toList := by rfl

theorem encFunc_text (ind : Nat) (x : String) (t : GTy) (e : Expr) :
    (encFunc x t e).text ind = "func(w []byte, ".toList ++ x.toList ++ [' '] ++ t.text ++ ") []byte {\n".toList ++
      tabs (ind + 1) ++ "return ".toList ++ e.text (ind + 1) ++ ['\n'] ++ tabs ind ++ ['}'] := by
  simp [encFunc, Expr.text, paramText, resultText, byteSlice_text, returns, Stmt.texts, Stmt.text, chars, sepText, comma, Expr.texts, n]

theorem vecCall_text (ind : Nat) (f : Text) (g : GTy) (args : List Expr) :
    (Expr.call (.inst (buf f) [g]) args).text ind = "buf.".toList ++ f ++ ['['] ++ g.text ++ "](".toList ++
      sepText comma (Expr.texts ind args) ++ [')'] := by
  simp [Expr.text, buf, n, GTy.texts, sepText]

theorem bufCall_text (ind : Nat) (f : Text) (args : List Expr) :
    (Expr.call (buf f) args).text ind = "buf.".toList ++ f ++ ['('] ++ sepText comma (Expr.texts ind args) ++ [')'] := by
  simp [Expr.text, buf, n]

theorem pairCall_text (ind : Nat) (f : Text) (g h : GTy) (as bs : List Expr) :
    (Expr.callLines (.inst (buf f) [g, h]) as bs).text ind = "buf.".toList ++ f ++ ['['] ++ g.text ++ [',', ' '] ++ h.text ++ "](\n".toList ++
      tabs (ind + 1) ++ sepText comma (Expr.texts (ind + 1) as) ++ [',', '\n'] ++ Expr.lines (ind + 1) bs ++ tabs ind ++ [')'] := by
  simp [Expr.text, buf, n, GTy.texts, sepText, comma]

theorem Stmt.texts_append (ind : Nat) (as bs : List Stmt) : Stmt.texts ind (as ++ bs) = Stmt.texts ind as ++ Stmt.texts ind bs := by
  induction as with
  | nil => rfl
  | cons a as ih => simp [Stmt.texts, ih]

mutual
theorem encTy_text : ∀ (t : Ty) (ind : Nat) (x : Text) (e : Expr), Plain e x →
    encTy ind x t = (encTree e t).map (Expr.text ind)
  | .prim p, ind, x, e, h => by
    rw [encTy, encTree, Option.map_some, bufCall_text]
    simp [fmt, l, Expr.texts, sepText, comma, plain_var "w" ind, h ind, n]
  | .vec t, ind, x, e, h => by
    rw [encTy, encTree, defTy_text t, encTy_text t (ind + 1) ['v'] (var "v") (plain_var "v")]
    cases defTree t <;> cases encTree (var "v") t <;>
      simp [fmt, l, Expr.texts, sepText, comma, plain_var "w" ind, h ind, n, vecCall_text, encFunc_text]
  | .hashMap k v, ind, x, e, h => by
    rw [encTy, encTree, defTy_text k, defTy_text v, encTy_text k (ind + 2) ['k'] (var "k") (plain_var "k"),
      encTy_text v (ind + 2) ['v'] (var "v") (plain_var "v")]
    cases defTree k <;> cases defTree v <;> cases encTree (var "k") k <;> cases encTree (var "v") v <;>
      simp [fmt, l, Expr.texts, Expr.lines, sepText, comma, plain_var "w" (ind + 1), h (ind + 1), n, pairCall_text, encFunc_text]
  | .hashSet t, ind, x, e, h => by
    rw [encTy, encTree, defTy_text t, encTy_text t (ind + 1) ['v'] (var "v") (plain_var "v")]
    cases defTree t <;> cases encTree (var "v") t <;>
      simp [fmt, l, Expr.texts, sepText, comma, plain_var "w" ind, h ind, n, vecCall_text, encFunc_text]
  | .option t, ind, x, e, h => by
    rw [encTy, encTree, defTy_text t, encTy_text t (ind + 1) ['v'] (var "v") (plain_var "v")]
    cases defTree t <;> cases encTree (var "v") t <;>
      simp [fmt, l, Expr.texts, sepText, comma, plain_var "w" ind, h ind, n, vecCall_text, encFunc_text]
  | .nonZero t, ind, x, e, h => by
    rw [encTy, encTree]
    by_cases hz : nzArm t = true
    · rw [if_pos hz, if_pos hz, encTy_text t ind _ _ (plain_get h)]
    · rw [if_neg hz, if_neg hz]; rfl
  | .tuple ts, ind, x, e, h => by
    rw [encTy, encTree]
    by_cases hz : tupleArm ts.length = true
    · rw [if_pos hz, if_pos hz, encTys_text ts ind 0 x e h]
      cases encTrees e 0 ts <;>
        simp [fmt, l, Expr.text, Expr.texts, sepText, comma, plain_var "w" _, n, Stmt.texts_append, Stmt.texts, Stmt.text,
          paramText, resultText, chars, byteSlice_text]
    · rw [if_neg hz, if_neg hz]; rfl
  | .array t m, ind, x, e, h => by
    rw [encTy, encTree, defTy_text t, encTy_text t (ind + 1) ['v'] (var "v") (plain_var "v")]
    by_cases hz : arrayArm m.toNat = true
    · rw [if_pos hz, if_pos hz]
      cases defTree t <;> cases encTree (var "v") t <;>
        simp [fmt, l, Expr.texts, sepText, comma, plain_var "w" ind, h ind, n, vecCall_text, encFunc_text]
    · rw [if_neg hz, if_neg hz]; rfl
  | .external _ _ _, ind, x, e, h => by
    rw [encTy, encTree, Option.map_some, Expr.text, plain_sel h _ ind]
    simp [fmt, l, Expr.texts, sepText, plain_var "w" ind, n]
theorem encTys_text : ∀ (ts : List Ty) (ind idx : Nat) (x : Text) (e : Expr), Plain e x →
    encTys ind x idx ts = (encTrees e idx ts).map (Stmt.texts (ind + 1))
  | [], ind, idx, x, e, h => by rw [encTys, encTrees]; rfl
  | t :: ts, ind, idx, x, e, h => by
    have h1 : Plain (.sel e (n "F" ++ printNat idx)) (x ++ ".F".toList ++ printNat idx) := fun i => by
      rw [plain_sel h _ i]; simp [n]
    rw [encTys, encTrees, encTy_text t (ind + 1) _ _ h1, encTys_text ts ind (idx + 1) x e h]
    cases encTree (.sel e (n "F" ++ printNat idx)) t <;> cases encTrees e (idx + 1) ts <;>
      simp [fmt, l, Stmt.texts, Stmt.text, plain_var "w" (ind + 1), chars]
end

theorem sizeFunc_text (ind : Nat) (x : String) (t : GTy) (e : Expr) :
    (sizeFunc x t e).text ind = "func(".toList ++ x.toList ++ [' '] ++ t.text ++ ") int {\n".toList ++
      tabs (ind + 1) ++ "return ".toList ++ e.text (ind + 1) ++ ['\n'] ++ tabs ind ++ ['}'] := by
  simp [sizeFunc, Expr.text, paramText, resultText, returns, Stmt.texts, Stmt.text, chars, sepText, Expr.texts, n, named,
    GTy.text, GTy.texts, argText]

mutual
theorem sizeTy_text : ∀ (t : Ty) (ind : Nat) (x : Text) (e : Expr), Plain e x →
    sizeTy ind x t = (sizeTree e t).map (Expr.text ind)
  | .prim p, ind, x, e, h => by
    rw [sizeTy, sizeTree, Option.map_some, bufCall_text]
    simp [fmt, l, Expr.texts, sepText, comma, h ind, n]
  | .vec t, ind, x, e, h => by
    rw [sizeTy, sizeTree, defTy_text t, sizeTy_text t (ind + 1) ['v'] (var "v") (plain_var "v")]
    cases defTree t <;> cases sizeTree (var "v") t <;>
      simp [fmt, l, Expr.texts, sepText, comma, h ind, n, vecCall_text, sizeFunc_text]
  | .hashMap k v, ind, x, e, h => by
    rw [sizeTy, sizeTree, defTy_text k, defTy_text v, sizeTy_text k (ind + 2) ['k'] (var "k") (plain_var "k"),
      sizeTy_text v (ind + 2) ['v'] (var "v") (plain_var "v")]
    cases defTree k <;> cases defTree v <;> cases sizeTree (var "k") k <;> cases sizeTree (var "v") v <;>
      simp [fmt, l, Expr.texts, Expr.lines, sepText, comma, h (ind + 1), n, pairCall_text, sizeFunc_text]
  | .hashSet t, ind, x, e, h => by
    rw [sizeTy, sizeTree, defTy_text t, sizeTy_text t (ind + 1) ['v'] (var "v") (plain_var "v")]
    cases defTree t <;> cases sizeTree (var "v") t <;>
      simp [fmt, l, Expr.texts, sepText, comma, h ind, n, vecCall_text, sizeFunc_text]
  | .option t, ind, x, e, h => by
    rw [sizeTy, sizeTree, defTy_text t, sizeTy_text t (ind + 1) ['v'] (var "v") (plain_var "v")]
    cases defTree t <;> cases sizeTree (var "v") t <;>
      simp [fmt, l, Expr.texts, sepText, comma, h ind, n, vecCall_text, sizeFunc_text]
  | .nonZero t, ind, x, e, h => by
    rw [sizeTy, sizeTree]
    by_cases hz : nzArm t = true
    · rw [if_pos hz, if_pos hz, sizeTy_text t ind _ _ (plain_get h)]
    · rw [if_neg hz, if_neg hz]; rfl
  | .tuple ts, ind, x, e, h => by
    rw [sizeTy, sizeTree]
    by_cases hz : tupleArm ts.length = true
    · rw [if_pos hz, if_pos hz, sizeTys_text ts ind 0 x e h]
      cases sizeTrees e 0 ts <;>
        simp [fmt, l, Expr.text, named, GTy.text, GTy.texts, argText, show printNat 0 = ['0'] from rfl, Expr.texts, sepText, comma, plain_var "size" _, n, Stmt.texts_append, Stmt.texts, Stmt.text,
          paramText, resultText, chars, Mabo.Go.n]
    · rw [if_neg hz, if_neg hz]; rfl
  | .array t m, ind, x, e, h => by
    rw [sizeTy, sizeTree, defTy_text t, sizeTy_text t (ind + 1) ['v'] (var "v") (plain_var "v")]
    by_cases hz : arrayArm m.toNat = true
    · rw [if_pos hz, if_pos hz]
      cases defTree t <;> cases sizeTree (var "v") t <;>
        simp [fmt, l, Expr.texts, sepText, comma, h ind, n, vecCall_text, sizeFunc_text]
    · rw [if_neg hz, if_neg hz]; rfl
  | .external _ _ _, ind, x, e, h => by
    rw [sizeTy, sizeTree, Option.map_some, Expr.text, plain_sel h _ ind]
    simp [fmt, l, Expr.texts, sepText, n]
theorem sizeTys_text : ∀ (ts : List Ty) (ind idx : Nat) (x : Text) (e : Expr), Plain e x →
    sizeTys ind x idx ts = (sizeTrees e idx ts).map (Stmt.texts (ind + 1))
  | [], ind, idx, x, e, h => by rw [sizeTys, sizeTrees]; rfl
  | t :: ts, ind, idx, x, e, h => by
    have h1 : Plain (.sel e (n "F" ++ printNat idx)) (x ++ ".F".toList ++ printNat idx) := fun i => by
      rw [plain_sel h _ i]; simp [n]
    rw [sizeTys, sizeTrees, sizeTy_text t (ind + 1) _ _ h1, sizeTys_text ts ind (idx + 1) x e h]
    cases sizeTree (.sel e (n "F" ++ printNat idx)) t <;> cases sizeTrees e (idx + 1) ts <;>
      simp [fmt, l, Stmt.texts, Stmt.text, plain_var "size" (ind + 1), chars]
end

/-! ### Decoding -/

theorem error_text : (named "error").text = "error".toList := by rfl

theorem decResults_text (t : GTy) : resultText (decResults t) = " ([]byte, ".toList ++ t.text ++ ", error)".toList := by
  simp [decResults, resultText, GTy.texts, sepText, comma, byteSlice_text, error_text]

theorem decFunc_text (ind : Nat) (t : GTy) (e : Expr) :
    (decFunc t e).text ind = "func(r []byte) ([]byte, ".toList ++ t.text ++ ", error) {\n".toList ++
      tabs (ind + 1) ++ "return ".toList ++ e.text (ind + 1) ++ ['\n'] ++ tabs ind ++ ['}'] := by
  simp [decFunc, Expr.text, paramText, decResults_text, byteSlice_text, returns, Stmt.texts, Stmt.text, chars, sepText, Expr.texts, n]

theorem decSingle_text (fn : String) (f : Text) (hf : f = fn.toList) (ind : Nat) (g : Option GTy) (e : Option Expr) :
    decSingle fn ind (g.map GTy.text) (e.map (Expr.text (ind + 1))) = (decSingleTree f g e).map (Expr.text ind) := by
  subst hf
  cases g <;> cases e <;>
    simp [decSingle, decSingleTree, fmt, l, vecCall_text, decFunc_text, Expr.texts, sepText, comma, plain_var "r" ind]

theorem decPair_text (fn : String) (ind : Nat) (g h : Option GTy) (d e : Option Expr) :
    decPair fn ind (g.map GTy.text) (h.map GTy.text) (d.map (Expr.text (ind + 2))) (e.map (Expr.text (ind + 2))) =
      (decPairTree (n fn) g h d e).map (Expr.text ind) := by
  cases g <;> cases h <;> cases d <;> cases e <;>
    simp [decPair, decPairTree, fmt, l, pairCall_text, decFunc_text, Expr.texts, Expr.lines, sepText, plain_var "r" (ind + 1), n]

mutual
theorem decTy_text : ∀ (t : Ty) (ind : Nat), decTy ind t = (decTree t).map (Expr.text ind)
  | .prim p, ind => by
    rw [decTy, decTree, Option.map_some, bufCall_text]
    simp [fmt, l, Expr.texts, sepText, plain_var "r" ind, n]
  | .vec t, ind => by
    rw [decTy, decTree, defTy_text t, decTy_text t (ind + 1), decSingle_text _ _ rfl]
  | .hashMap k v, ind => by
    rw [decTy, decTree, defTy_text k, defTy_text v, decTy_text k (ind + 2), decTy_text v (ind + 2), decPair_text]
  | .hashSet t, ind => by
    rw [decTy, decTree, defTy_text t, decTy_text t (ind + 1), decSingle_text _ _ rfl]
  | .option t, ind => by
    rw [decTy, decTree, defTy_text t, decTy_text t (ind + 1), decSingle_text _ _ rfl]
  | .nonZero (.prim p), ind => by
    rw [decTy, decTree]
    by_cases hz : nzPrim p = true
    · rw [if_pos hz, if_pos hz, Option.map_some, bufCall_text]
      simp [fmt, l, Expr.texts, sepText, plain_var "r" ind, n]
    · rw [if_neg hz, if_neg hz]; rfl
  | .nonZero (.vec t), ind => by
    rw [decTy, decTree, defTy_text t, decTy_text t (ind + 1), decSingle_text _ _ rfl]
  | .nonZero (.hashMap k v), ind => by
    rw [decTy, decTree, defTy_text k, defTy_text v, decTy_text k (ind + 2), decTy_text v (ind + 2), decPair_text]
  | .nonZero (.hashSet t), ind => by
    rw [decTy, decTree, defTy_text t, decTy_text t (ind + 1), decSingle_text _ _ rfl]
  | .nonZero (.option t), ind => rfl
  | .nonZero (.nonZero t), ind => rfl
  | .nonZero (.tuple ts), ind => rfl
  | .nonZero (.array t _), ind => rfl
  | .nonZero (.external _ _ _), ind => rfl
  | .tuple ts, ind => by
    rw [decTy, decTree]
    by_cases hz : tupleArm ts.length = true
    · rw [if_pos hz, if_pos hz, decTys_text ts ind 0]
      cases decTrees 0 ts <;>
        simp [fmt, l, Expr.text, Expr.texts, sepText, comma, plain_var "r" _, plain_var "tuple" _, plain_var "nil" _, n,
          Stmt.texts_append, Stmt.texts, Stmt.text, paramText, decResults_text, chars, byteSlice_text, GTy.text, GTy.texts,
          argText]
    · rw [if_neg hz, if_neg hz]; rfl
  | .array t m, ind => by
    rw [decTy, decTree]
    by_cases hz : arrayArm m.toNat = true
    · rw [if_pos hz, if_pos hz, defTy_text t, decTy_text t (ind + 1)]
      cases defTree t <;> cases decTree t <;>
        simp [decSingleTree, fmt, l, vecCall_text, decFunc_text, Expr.texts, sepText, comma, plain_var "r" ind, n]
    · rw [if_neg hz, if_neg hz]; rfl
  | .external path name generics, ind => by
    rw [decTy, decTree, defTy_text]
    cases defTree (.external path name generics) <;>
      simp [fmt, l, Expr.text, Expr.texts, sepText, plain_var "r" _, plain_var "value" _, n,
          Stmt.texts, Stmt.text, paramText, decResults_text, chars, byteSlice_text]
theorem decTys_text : ∀ (ts : List Ty) (ind idx : Nat), decTys ind idx ts = (decTrees idx ts).map (Stmt.texts (ind + 1))
  | [], ind, idx => by rw [decTys, decTrees]; rfl
  | t :: ts, ind, idx => by
    rw [decTys, decTrees, decTy_text t (ind + 1), decTys_text ts ind (idx + 1)]
    cases decTree t <;> cases decTrees (idx + 1) ts <;>
      simp [fmt, l, Stmt.texts, Stmt.text, Expr.text, Expr.texts, sepText, comma, plain_var "err" _, plain_var "nil" _,
        plain_var "value" _, plain_var "r" _, plain_var "r2" _, plain_var "tuple" _, plain_id, n, chars]
end

/-! ### Fields and methods -/

theorem fmt_allOf {α β : Type} (g : α → Option Text) (h : α → Option β) (T : β → Text) (as : List α)
    (hg : ∀ a, g a = (h a).map T) : fmt (as.map g) = (allOf h as).map fun bs => (bs.map T).flatten := by
  induction as with
  | nil => rfl
  | cons a as ih =>
    simp only [List.map_cons, fmt, ih, hg a, allOf]
    cases h a <;> cases allOf h as <;> simp

theorem fmt_pure {α : Type} (g : α → Option Text) (T : α → Text) (as : List α) (hg : ∀ a, g a = some (T a)) :
    fmt (as.map g) = some (as.map T).flatten := by
  induction as with
  | nil => rfl
  | cons a as ih => simp only [List.map_cons, fmt, ih, hg a]; simp

theorem stmts_flatten (ind : Nat) (ss : List Stmt) : Stmt.texts ind ss = (ss.map (Stmt.text ind)).flatten := by
  induction ss with
  | nil => rfl
  | cons s ss ih => rw [Stmt.texts, ih]; rfl

theorem tabs_one : tabs 1 = ['\t'] := rfl
theorem tabs_two : tabs 2 = ['\t', '\t'] := rfl
theorem tabs_three : tabs 3 = ['\t', '\t', '\t'] := rfl
theorem tabs_four : tabs 4 = ['\t', '\t', '\t', '\t'] := rfl
theorem tabs_five : tabs 5 = ['\t', '\t', '\t', '\t', '\t'] := rfl

theorem plain_field (f : Field) : Plain (.sel (var "v") (fieldName f)) ("v.".toList ++ upperCamel f.name.toList) := fun i => by
  rw [plain_sel (plain_var "v") _ i]; simp [fieldName]

/-- `EncodeField` for a field. -/
def encPlainTree (f : Field) : Option Stmt := do
  pure (.assign (var "w") (.call (buf (n "EncodeField")) [var "w", .nat f.id.toNat,
    .func true [(n "w", byteSlice)] [byteSlice] (returns (← encTree (.sel (var "v") (fieldName f)) f.ty))]))

theorem encPlain_text (f : Field) :
    fmt [l "\tw = buf.EncodeField(w, ", some (printNat f.id.toNat), l ", func (w []byte) []byte {\n\t\treturn ",
      encTy 2 ("v.".toList ++ upperCamel f.name.toList) f.ty, l "\n\t})\n"] = (encPlainTree f).map (Stmt.text 1) := by
  rw [encTy_text f.ty 2 _ _ (plain_field f), encPlainTree]
  cases encTree (.sel (var "v") (fieldName f)) f.ty <;>
    simp [fmt, l, Stmt.text, Stmt.texts, buf, GTy.texts, Expr.text, Expr.texts, sepText, comma, plain_var "w" _, n, chars, paramText,
      resultText, byteSlice_text, returns, tabs_one, tabs_two]

theorem encField_text (f : Field) : encField f = (encFieldTree f).map (Stmt.text 1) := by
  cases ht : f.ty with
  | option t =>
    have e1 : encField f = fmt [l "\tw = buf.EncodeFieldOption[", defTy t, l "](w, ", some (printNat f.id.toNat), l ", &v.", up f.name,
      l ", func (w []byte, v ", defTy t, l ") []byte {\n\t\treturn ", encTy 2 ['v'] t, l "\n\t})\n"] := by
      rw [encField.eq_def, ht]
    have e2 : encFieldTree f = (do
      let g ← defTree t
      pure (.assign (var "w") (.call (.inst (buf (n "EncodeFieldOption")) [g]) [var "w", .nat f.id.toNat,
        .addr (.sel (var "v") (fieldName f)),
        .func true [(n "w", byteSlice), (n "v", g)] [byteSlice] (returns (← encTree (var "v") t))]))) := by
      rw [encFieldTree.eq_def, ht]
    rw [e1, e2, defTy_text t, encTy_text t 2 ['v'] (var "v") (plain_var "v")]
    cases defTree t <;> cases encTree (var "v") t <;>
      simp [fmt, l, Stmt.text, Stmt.texts, buf, GTy.texts, Expr.text, Expr.texts, sepText, comma, plain_var "w" _, plain_var "v" _,
        n, chars, paramText, resultText, byteSlice_text, returns, tabs_one, tabs_two, fieldName, up]
  | _ =>
    have e2 : encFieldTree f = encPlainTree f := by rw [encFieldTree.eq_def, encPlainTree, ht]
    rw [encField.eq_def, e2, ← encPlain_text f, ht]

theorem encFields_text (fs : Fields) : encFields fs = (encFieldsTree fs).map (Stmt.texts 1) := by
  rw [encFields, encFieldsTree]
  by_cases hu : fs.kind = .unit
  · rw [if_pos hu, if_pos hu]; rfl
  · rw [if_neg hu, if_neg hu, fmt_allOf encField encFieldTree (Stmt.text 1) _ encField_text]
    cases allOf encFieldTree fs.fields <;>
      simp [fmt, l, Stmt.texts_append, Stmt.texts, Stmt.text, stmts_flatten, bufCall_text, Expr.texts, sepText, comma,
        plain_var "w" _, n, chars, tabs_one, buf, Expr.text]

/-- `SizeField` for a field. -/
def sizePlainTree (f : Field) : Option Stmt := do
  pure (.addAssign (var "size") (.call (buf (n "SizeField")) [.nat f.id.toNat,
      .func false [] [named "int"] (returns (← sizeTree (.sel (var "v") (fieldName f)) f.ty))]))

theorem int_text : (named "int").text = "int".toList := by rfl

theorem sizePlain_text (f : Field) :
    fmt [l "\tsize += buf.SizeField(", some (printNat f.id.toNat), l ", func() int {\n\t\treturn ",
      sizeTy 2 ("v.".toList ++ upperCamel f.name.toList) f.ty, l "\n\t})\n"] = (sizePlainTree f).map (Stmt.text 1) := by
  rw [sizeTy_text f.ty 2 _ _ (plain_field f), sizePlainTree]
  cases sizeTree (.sel (var "v") (fieldName f)) f.ty <;>
    simp [fmt, l, Stmt.text, Stmt.texts, buf, GTy.texts, Expr.text, Expr.texts, sepText, comma, plain_var "size" _, n, chars, paramText,
      resultText, int_text, returns, tabs_one, tabs_two]

theorem sizeField_text (f : Field) : sizeField f = (sizeFieldTree f).map (Stmt.text 1) := by
  cases ht : f.ty with
  | option t =>
    have e1 : sizeField f = fmt [l "\tsize += buf.SizeFieldOption[", defTy t, l "](", some (printNat f.id.toNat), l ", &v.", up f.name,
      l ", func (v ", defTy t, l ") int {\n\t\treturn ", sizeTy 2 ['v'] t, l "\n\t})\n"] := by
      rw [sizeField.eq_def, ht]
    have e2 : sizeFieldTree f = (do
      let g ← defTree t
      pure (.addAssign (var "size") (.call (.inst (buf (n "SizeFieldOption")) [g]) [.nat f.id.toNat,
        .addr (.sel (var "v") (fieldName f)), .func true [(n "v", g)] [named "int"] (returns (← sizeTree (var "v") t))]))) := by
      rw [sizeFieldTree.eq_def, ht]
    rw [e1, e2, defTy_text t, sizeTy_text t 2 ['v'] (var "v") (plain_var "v")]
    cases defTree t <;> cases sizeTree (var "v") t <;>
      simp [fmt, l, Stmt.text, Stmt.texts, buf, GTy.texts, Expr.text, Expr.texts, sepText, comma, plain_var "size" _, plain_var "v" _,
        n, chars, paramText, resultText, int_text, returns, tabs_one, tabs_two, fieldName, up]
  | _ =>
    have e2 : sizeFieldTree f = sizePlainTree f := by rw [sizeFieldTree.eq_def, sizePlainTree, ht]
    rw [sizeField.eq_def, e2, ← sizePlain_text f, ht]

theorem sizeFields_text (fs : Fields) : sizeFields fs = (sizeFieldsTree fs).map (Stmt.texts 1) := by
  rw [sizeFields, sizeFieldsTree]
  by_cases hu : fs.kind = .unit
  · rw [if_pos hu, if_pos hu]; rfl
  · rw [if_neg hu, if_neg hu, fmt_allOf sizeField sizeFieldTree (Stmt.text 1) _ sizeField_text]
    cases allOf sizeFieldTree fs.fields <;>
      simp [fmt, l, Stmt.texts_append, Stmt.texts, Stmt.text, stmts_flatten, plain_var "size" _, n, chars, tabs_one, buf, Expr.text]

theorem foundVar_text (f : Field) : foundVar f = some ((foundVarTree f).text 1) := by
  simp [foundVar, foundVarTree, fmt, l, up, Stmt.text, sepText, foundName, fieldName, n, tabs_one, chars, plain_var "false" _]

theorem foundCheck_text (k : FieldKind) (f : Field) : foundCheck k f = some ((foundCheckTree k f).text 1) := by
  by_cases hk : k = .named <;>
    simp [hk, foundCheck, foundCheckTree, fmt, l, up, Stmt.text, Stmt.texts, Expr.text, Expr.texts, Expr.lines, sepText, foundName,
      fieldName, n, tabs_one, tabs_two, tabs_three, chars, plain_var "nil" _, GTy.text, GTy.texts, argText, braces, comma]

theorem decField_text (f : Field) : decField f = (decFieldTree f).map (Stmt.text 3) := by
  rw [decField, decFieldTree, decTy_text]
  cases decTree f.ty <;>
    simp [fmt, l, up, Stmt.text, Stmt.texts, Expr.text, Expr.texts, sepText, comma, foundName, fieldName, n, tabs_three, tabs_four,
      tabs_five, chars, plain_var _ _]

/-- The text of `recv[T, U]`. -/
def recvText (recv : Text) (gs : List Text) : Text := recv ++ tparamText [] gs

theorem bodyText_cons (s : Stmt) (ss : List Stmt) : bodyText (s :: ss) = ['{', '\n'] ++ Stmt.texts 1 (s :: ss) ++ ['}'] := rfl

theorem bodyText_ne (ss : List Stmt) (h : ss ≠ []) : bodyText ss = ['{', '\n'] ++ Stmt.texts 1 ss ++ ['}'] := by
  cases ss with
  | nil => exact absurd rfl h
  | cons s ss => rfl

/-- The text of declarations. -/
def declsText (std : Std) (ds : List Decl) : Text := (ds.map (Decl.text std)).flatten

theorem encMethod_text (std : Std) (recv : Text) (gs : List Text) (ret : String) (fs : Fields) :
    encMethod (some (recvText recv gs)) ret fs = (encMethodTree recv gs ret fs).map (declsText std) := by
  rw [encMethod, encMethodTree, encFields_text]
  cases encFieldsTree fs with
  | none => simp [fmt, l]
  | some b =>
    have := bodyText_ne (b ++ [.ret [var ret]]) (by simp)
    simp [fmt, l, declsText, Decl.text, this, Stmt.texts_append, Stmt.texts, Stmt.text, Expr.texts, sepText, plain_var ret _,
      GTy.text, GTy.texts, argText, n, paramText, resultText, byteSlice_text, chars, recvText, tabs_one]

theorem sizeMethod_text (std : Std) (recv : Text) (gs : List Text) (fs : Fields) :
    sizeMethod (some (recvText recv gs)) fs = (sizeMethodTree recv gs fs).map (declsText std) := by
  rw [sizeMethod, sizeMethodTree, sizeFields_text]
  cases sizeFieldsTree fs with
  | none => simp [fmt, l]
  | some b =>
    simp [fmt, l, declsText, Decl.text, bodyText_cons, Stmt.texts_append, Stmt.texts, Stmt.text, Expr.texts, Expr.text, sepText,
      plain_var "size" _, GTy.text, GTy.texts, argText, n, paramText, resultText, int_text, chars, recvText, tabs_one,
      show printNat 0 = ['0'] from rfl]

set_option maxRecDepth 4096 in
theorem decMethod_text (std : Std) (recv : Text) (gs : List Text) (fs : Fields) :
    decMethod (some (recvText recv gs)) fs = (decMethodTree recv gs fs).map (declsText std) := by
  rw [decMethod, decMethodTree, decBodyTree, fmt_allOf decField decFieldTree (Stmt.text 3) _ decField_text,
    fmt_pure foundVar _ _ foundVar_text, fmt_pure (foundCheck fs.kind) _ _ (foundCheck_text fs.kind)]
  cases allOf decFieldTree fs.fields with
  | none => simp [fmt, l]
  | some b =>
    have := fun x => bodyText_ne (fs.fields.map foundVarTree ++ .blank :: x) (by simp)
    simp [fmt, l, declsText, Decl.text, this, Stmt.texts_append, Stmt.texts, Stmt.text, Expr.texts, Expr.text, sepText, comma,
      plain_var _ _, GTy.text, GTy.texts, argText, n, paramText, resultText, byteSlice_text, error_text, chars, recvText,
      tabs_one, tabs_two, tabs_three, tabs_four, decLoopTree, buf, stmts_flatten, Function.comp_def, show printNat 0 = ['0'] from rfl]

/-! ### Definitions and files -/

theorem comment_text (ind : Nat) (ls : List String) : comment ind ls = some (commentText ind ls) := by
  rw [comment, commentText]
  exact fmt_pure _ _ _ fun x => by simp [fmt, l, chars]

theorem nameList_text (suffix : Text) (g : String) (gs : List String) :
    nameList suffix (g :: gs) = sepText comma (((g :: gs).map String.toList).map (· ++ suffix)) := by
  induction gs generalizing g with
  | nil => rfl
  | cons h gs ih =>
    have e1 : nameList suffix (g :: h :: gs) = g.toList ++ suffix ++ [',', ' '] ++ nameList suffix (h :: gs) := rfl
    have e2 : sepText comma (((g :: h :: gs).map String.toList).map (· ++ suffix)) =
      g.toList ++ suffix ++ comma ++ sepText comma (((h :: gs).map String.toList).map (· ++ suffix)) := rfl
    rw [e1, e2, ih]; rfl

theorem nameBrackets_text (suffix : Text) (gs : List String) :
    nameBrackets suffix gs = some (tparamText suffix (gs.map String.toList)) := by
  cases gs with
  | nil => rfl
  | cons g gs =>
    have e1 : nameBrackets suffix (g :: gs) = some ('[' :: (nameList suffix (g :: gs) ++ [']'])) := rfl
    rw [e1, nameList_text]; rfl

theorem structBody_text (fs : Fields) : structBody fs = (structTree fs).map TypeBody.text := by
  have h := fmt_allOf (fun f => fmt [comment 1 f.comment, l "\t", up f.name, l " ", defTy f.ty, l "\n"])
    (fun f : Field => do pure (GField.mk f.comment (fieldName f) (← defTree f.ty)))
    (fun f => commentText 1 f.comment ++ ['\t'] ++ f.name ++ [' '] ++ f.ty.text ++ ['\n']) fs.fields fun f => by
      rw [comment_text, defTy_text]
      cases defTree f.ty <;> simp [fmt, l, up, fieldName]
  rw [structBody, structTree, h]
  cases hf : fs.fields with
  | nil => rfl
  | cons f rest =>
    rw [if_neg (by simp)]
    rw [allOf]
    cases defTree f.ty with
    | none => simp [fmt, l]
    | some g =>
      cases allOf (fun f : Field => do pure (GField.mk f.comment (fieldName f) (← defTree f.ty))) rest <;>
        simp [fmt, l, TypeBody.text, chars]

theorem selfType_text (name : Text) (gs : List Text) : (selfType name gs).text = recvText name gs := by
  have : GTy.texts (gs.map fun g => .name g []) = gs := by
    induction gs with
    | nil => rfl
    | cons g gs ih => simp [GTy.texts, ih, GTy.text, argText]
  rw [selfType, GTy.text, this, recvText]
  cases gs <;> simp [argText, tparamText]

theorem lines_entries (ind : Nat) (fs : List Field) :
    Expr.lines ind (fs.map fun f => .entry (fieldName f) 0 (.id (paramName f))) =
      (fs.map fun f => tabs ind ++ fieldName f ++ [':', ' '] ++ paramName f ++ [',', '\n']).flatten := by
  induction fs with
  | nil => rfl
  | cons f fs ih => simp [Expr.lines, ih, Expr.text]

theorem newFunc_text (std : Std) (name : Text) (gs : List String) (fs : Fields) :
    fmt [newFunc (some name) gs fs, l "\n"] = (newTree name (gs.map String.toList) fs).map (Decl.text std) := by
  have h := fmt_allOf (fun f => fmt [l "\t", low f.name, l " ", defTy f.ty, l ",\n"])
    (fun f : Field => do pure (paramName f, ← defTree f.ty))
    (fun p => ['\t'] ++ p.1 ++ [' '] ++ p.2.text ++ [',', '\n']) fs.fields fun f => by
      rw [defTy_text]
      cases defTree f.ty <;> simp [fmt, l, low, paramName]
  have hc : constructor fs = some (braces 1 (Expr.lines 2 (fs.fields.map fun f => .entry (fieldName f) 0 (.id (paramName f))))) := by
    rw [constructor, lines_entries]
    cases hf : fs.fields with
    | nil => rfl
    | cons f rest =>
      rw [if_neg (by simp), fmt_pure _ _ (f :: rest) (fun f => by
        show fmt [l "\t\t", up f.name, l ": ", low f.name, l ",\n"] =
          some (tabs 2 ++ fieldName f ++ [':', ' '] ++ paramName f ++ [',', '\n'])
        simp [fmt, l, up, low, fieldName, paramName, tabs_two])]
      simp [fmt, l, braces, tabs_two, tabs_one]
  have he : ∀ ps, allOf (fun f : Field => do pure (paramName f, ← defTree f.ty)) fs.fields = some ps →
      ps.isEmpty = fs.fields.isEmpty := by
    intro ps
    cases fs.fields with
    | nil => intro h; cases h; rfl
    | cons f rest =>
      rw [allOf]
      cases defTree f.ty <;> cases allOf (fun f : Field => do pure (paramName f, ← defTree f.ty)) rest <;>
        simp <;> (rintro rfl; simp)
  rw [newFunc, parameters, h, hc, nameBrackets_text, nameBrackets_text, newTree]
  cases hp : allOf (fun f : Field => do pure (paramName f, ← defTree f.ty)) fs.fields with
  | none => simp [fmt, l]
  | some ps =>
    have := he ps hp
    cases hem : fs.fields.isEmpty <;>
    simp [fmt, l, Decl.text, this, hem, chars, selfType_text, recvText, bodyText, Stmt.texts, Stmt.text, Expr.texts, sepText,
      Expr.text, n, tabs_one]

theorem fmt_break (a : Option Text) (ps : List (Option Text)) :
    fmt (a :: l "\n\n" :: ps) = fmt (fmt [a, l "\n"] :: l "\n" :: ps) := by
  cases a <;> cases h : fmt ps <;> simp [fmt, l, h]

theorem declsText_append (std : Std) (as bs : List Decl) : declsText std (as ++ bs) = declsText std as ++ declsText std bs := by
  simp [declsText]

theorem declsText_cons (std : Std) (a : Decl) (bs : List Decl) : declsText std (a :: bs) = a.text std ++ declsText std bs := by
  simp [declsText]

theorem declsText_nil (std : Std) : declsText std [] = [] := rfl

theorem blank_text (std : Std) : Decl.text std .blank = ['\n'] := rfl

theorem typeDecl_text (std : Std) (c : List String) (x : Text) (ps : List Text) (b : TypeBody) :
    (Decl.type c x ps b).text std = commentText 0 c ++ "type ".toList ++ x ++ tparamText " any".toList ps ++ [' '] ++ b.text ++ ['\n'] := by
  rw [Decl.text]; rfl

theorem recv_text (name : Text) (gs : List String) :
    fmt [some name, nameBrackets [] gs] = some (recvText name (gs.map String.toList)) := by
  rw [nameBrackets_text]; simp [fmt, recvText]

theorem renderStruct_text (std : Std) (s : Struct) : renderStruct s = (structDecls s).map (declsText std) := by
  rw [renderStruct, structDecls, comment_text, structBody_text, up, recv_text, nameBrackets_text, encMethod_text std,
    decMethod_text std, sizeMethod_text std]
  have hn := newFunc_text std (upperCamel s.name.toList) s.generics s.fields
  simp only [fmt, l] at hn ⊢
  cases h1 : structTree s.fields with
  | none => simp
  | some b =>
    cases h2 : newTree (upperCamel s.name.toList) (s.generics.map String.toList) s.fields with
    | none =>
      rw [h2] at hn
      cases hx : newFunc (some (upperCamel s.name.toList)) s.generics s.fields with
      | none => simp
      | some x => rw [hx] at hn; simp at hn
    | some nw =>
      rw [h2] at hn
      cases hx : newFunc (some (upperCamel s.name.toList)) s.generics s.fields with
      | none => rw [hx] at hn; simp at hn
      | some x =>
        rw [hx] at hn
        simp only [Option.map_some, Option.some.injEq, List.append_nil] at hn
        cases encMethodTree (upperCamel s.name.toList) (s.generics.map String.toList) "w" s.fields <;>
        cases decMethodTree (upperCamel s.name.toList) (s.generics.map String.toList) s.fields <;>
        cases sizeMethodTree (upperCamel s.name.toList) (s.generics.map String.toList) s.fields <;>
        simp [declsText_append, declsText_cons, declsText_nil, blank_text, typeDecl_text, ← hn]

theorem sealed_text (std : Std) (name : Text) (gs : List Text) :
    (Decl.method false name gs (n "sealed") [] [] []).text std = "func (v ".toList ++ recvText name gs ++ ") sealed() {}\n".toList := by
  simp [Decl.text, chars, n, recvText, paramText, sepText, resultText, bodyText]

theorem renderVariant_text (std : Std) (e : String) (generics : List String) (v : Variant) :
    fmt [l "\n", renderVariant e generics v] = (variantDecls e generics v).map (declsText std) := by
  rw [variantDecls]
  simp only [renderVariant, up]
  have hname : fmt [some (upperCamel e.toList), l "_", some (upperCamel v.name.toList)] =
    some (upperCamel e.toList ++ ['_'] ++ upperCamel v.name.toList) := by simp [fmt, l]
  rw [hname]
  generalize upperCamel e.toList ++ ['_'] ++ upperCamel v.name.toList = name
  generalize (generics.filter fun g => usesGeneric g v.fields) = gs
  rw [comment_text, structBody_text, recv_text, nameBrackets_text, encMethod_text std, decMethod_text std, sizeMethod_text std]
  have hn := newFunc_text std name gs v.fields
  simp only [fmt, l] at hn ⊢
  cases h1 : structTree v.fields with
  | none => simp
  | some b =>
    cases h2 : newTree name (gs.map String.toList) v.fields with
    | none =>
      rw [h2] at hn
      cases hx : newFunc (some name) gs v.fields with
      | none => simp
      | some x => rw [hx] at hn; simp at hn
    | some nw =>
      rw [h2] at hn
      cases hx : newFunc (some name) gs v.fields with
      | none => rw [hx] at hn; simp at hn
      | some x =>
        rw [hx] at hn
        simp only [Option.map_some, Option.some.injEq, List.append_nil] at hn
        cases encMethodTree name (gs.map String.toList) "nil" v.fields <;>
        cases decMethodTree name (gs.map String.toList) v.fields <;>
        cases sizeMethodTree name (gs.map String.toList) v.fields <;>
        simp [declsText_append, declsText_cons, declsText_nil, blank_text, typeDecl_text, ← hn, sealed_text]

theorem flatten_decls (std : Std) (ds : List (List Decl)) : declsText std ds.flatten = (ds.map (declsText std)).flatten := by
  induction ds with
  | nil => rfl
  | cons d ds ih => simp [declsText_append, ih]

theorem renderEnum_text (std : Std) (e : Enum) : renderEnum e = (enumDecls e).map (declsText std) := by
  rw [renderEnum, enumDecls, comment_text, up, fmt_allOf _ (variantDecls e.name e.generics) (declsText std) _
    (renderVariant_text std e.name e.generics)]
  simp only [fmt, l]
  cases allOf (variantDecls e.name e.generics) e.variants <;>
    simp [declsText_append, declsText_cons, declsText_nil, blank_text, typeDecl_text, flatten_decls, TypeBody.text, chars, n,
      GTy.text, GTy.texts, argText, tparamText, commentText]

theorem renderAlias_text (std : Std) (a : TypeAlias) : renderAlias a = (aliasDecls a).map (declsText std) := by
  rw [renderAlias, aliasDecls, comment_text, defTy_text]
  simp only [fmt, l, up]
  cases defTree a.target <;> simp [declsText_cons, declsText_nil, blank_text, typeDecl_text, TypeBody.text, tparamText]

theorem constTy_text (t : Ty) : constTy t = (constTree t).map GTy.text := by
  cases t with
  | prim p => cases p <;> rfl
  | _ => rfl

theorem constKind_text (t : Ty) : (constKind t).toList = if (constKind t == "var") = true then "var".toList else "const".toList := by
  cases t with
  | prim p => cases p <;> rfl
  | _ => rfl

theorem renderConst_text (std : Std) (c : Const) : renderConst std c = (constDecls c).map (declsText std) := by
  rw [renderConst, constDecls, comment_text, constTy_text]
  simp only [fmt, l, up, constKind_text c.ty]
  cases hk : (constKind c.ty == "var") <;> cases constTree c.ty <;> simp [declsText_cons, declsText_nil, Decl.text, chars]

/-- What one definition adds to a file, definition.rs:35-86. -/
def declsOne : Definition → Option (List Decl)
  | .struct s => structDecls s
  | .enum e => enumDecls e
  | .typeAlias a => aliasDecls a
  | .const c => constDecls c
  | .module _ _ _ | .import _ _ => some []

theorem declsOf_cons (d : Definition) (ds : List Definition) :
    declsOf (d :: ds) = (declsOne d).bind fun here => (declsOf ds).bind fun rest => some (here ++ rest) := by
  cases d <;> rfl

theorem file_text (std : Std) (name : String) (ls : List String) (ds : List Decl) :
    fmt [header, package name ls, imports, some (declsText std ds)] =
      some ((File.mk ls (snake name.toList) importTree ds).text std) := by
  rw [header, package, imports, comment_text]
  simp [fmt, l, File.text, chars, importTree, n, declsText]

end Mabo.Go
