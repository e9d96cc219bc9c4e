import Verif.Spec.GoRuntime
/-! The emitted expressions encode, measure and decode values, given that the runtime library does. -/
namespace Mabo.Go
open Mabo.Simplify Mabo.Spec.GoRun
open Mabo.Schema (Prim FieldKind)
open Mabo.Parse (Text printNat)

/-- The value of an expression. -/
def valueOf (ρ : Runtime) (Γ : Env) (e : Expr) : Option (List Val) := (eval ρ Γ e).bind (·.values ρ)

theorem lookup_cons (Γ : Env) (x y : Text) (v : Val) : lookup ((y, v) :: Γ) x = if x = y then some v else lookup Γ x := rfl

theorem eval_var {ρ : Runtime} {Γ : Env} {x : Text} {v : Val} (h : lookup Γ x = some v) : eval ρ Γ (.id x) = some (.vals [v]) := by
  simp [eval, name, h]

theorem eval_nil {ρ : Runtime} {Γ : Env} (h : lookup Γ (n "nil") = none) : eval ρ Γ (var "nil") = some (.vals [.nil]) := by
  simp only [var, eval, name, h]; rfl

theorem eval_true {ρ : Runtime} {Γ : Env} (h : lookup Γ (n "true") = none) : eval ρ Γ (var "true") = some (.vals [.bool true]) := by
  simp only [var, eval, name, h]; rfl

theorem eval_false {ρ : Runtime} {Γ : Env} (h : lookup Γ (n "false") = none) :
    eval ρ Γ (var "false") = some (.vals [.bool false]) := by
  simp only [var, eval, name, h]; rfl

theorem eval_buf {ρ : Runtime} {Γ : Env} (h : lookup Γ (n "buf") = none) (x : Text) : eval ρ Γ (buf x) = some (.lib x []) := by
  have : name Γ (n "buf") = some .package := by simp only [name, h]; rfl
  simp only [buf, eval, this]

theorem eval_inst {ρ : Runtime} {Γ : Env} (h : lookup Γ (n "buf") = none) (x : Text) (ts : List GTy) :
    eval ρ Γ (.inst (buf x) ts) = some (.lib x ts) := by
  simp only [eval, eval_buf h]

/-- An argument that is a value. -/
def Is (ρ : Runtime) (Γ : Env) (e : Expr) (v : Val) : Prop := ∃ r, eval ρ Γ e = some r ∧ r.value ρ = some v

theorem Is.var {ρ : Runtime} {Γ : Env} {x : Text} {v : Val} (h : lookup Γ x = some v) : Is ρ Γ (.id x) v := ⟨_, eval_var h, rfl⟩

theorem Is.arg {ρ : Runtime} {Γ : Env} {e : Expr} {v : Val} (h : Is ρ Γ e v) : ∃ r, eval ρ Γ e = some r ∧ r.arg ρ = some (.val v) := by
  obtain ⟨r, h1, h2⟩ := h
  refine ⟨r, h1, ?_⟩
  cases r with
  | fn f => simp [Res.value, Res.values] at h2
  | _ => simp [Res.arg, h2]

theorem Is.bind {ρ : Runtime} {Γ : Env} {e : Expr} {v : Val} (h : Is ρ Γ e v) : (eval ρ Γ e).bind (·.value ρ) = some v := by
  obtain ⟨r, h1, h2⟩ := h; simp [h1, h2]

theorem is_iff {ρ : Runtime} {Γ : Env} {e : Expr} {v : Val} : (eval ρ Γ e).bind (·.value ρ) = some v ↔ Is ρ Γ e v := by
  rw [Option.bind_eq_some_iff]; rfl

theorem evalArgs_nil (ρ : Runtime) (Γ : Env) : evalArgs ρ Γ [] = some [] := by rw [evalArgs]

theorem evalArgs_val {ρ : Runtime} {Γ : Env} {e : Expr} {v : Val} {es : List Expr} {as : List Arg} (h : Is ρ Γ e v)
    (hs : evalArgs ρ Γ es = some as) : evalArgs ρ Γ (e :: es) = some (.val v :: as) := by
  obtain ⟨r, h1, h2⟩ := h.arg
  rw [evalArgs, h1, hs]; simp [h2]

/-- What a function literal does. -/
def closure (ρ : Runtime) (Γ : Env) (ps : List (Text × GTy)) (body : List Stmt) (vs : List Val) : Option (List Val) :=
  (define Γ (ps.map (·.1)) vs).bind fun Δ => (runAll ρ 0 Δ body).bind Out.result

theorem evalArgs_fn {ρ : Runtime} {Γ : Env} {sp : Bool} {ps : List (Text × GTy)} {rs : List GTy} {body : List Stmt} {es : List Expr}
    {as : List Arg} (hs : evalArgs ρ Γ es = some as) :
    evalArgs ρ Γ (.func sp ps rs body :: es) = some (.fn (closure ρ Γ ps body) :: as) := by
  rw [evalArgs, eval, hs]; rfl

theorem runAll_ret {ρ : Runtime} {k : Nat} {Γ : Env} {e : Expr} {vs : List Val} (h : valueOf ρ Γ e = some vs) :
    runAll ρ k Γ (returns e) = some (.ret vs Γ) := by
  rw [valueOf] at h
  simp [returns, runAll, run, evalList, h]

/-- The result of a call of the library. -/
theorem value_call {ρ : Runtime} {Γ : Env} {f : Expr} {args : List Expr} {as : List Arg} {x : Text} {ts : List GTy}
    (hf : eval ρ Γ f = some (.lib x ts)) (ha : evalArgs ρ Γ args = some as) : valueOf ρ Γ (.call f args) = ρ.call x ts as := by
  simp only [valueOf, eval, hf, ha, Option.bind_some, Res.apply]
  cases ρ.call x ts as <;> rfl

theorem value_callLines {ρ : Runtime} {Γ : Env} {f : Expr} {us vs : List Expr} {as bs : List Arg} {x : Text} {ts : List GTy}
    (hf : eval ρ Γ f = some (.lib x ts)) (ha : evalArgs ρ Γ us = some as) (hb : evalArgs ρ Γ vs = some bs) :
    valueOf ρ Γ (.callLines f us vs) = ρ.call x ts (as ++ bs) := by
  simp only [valueOf, eval, hf, ha, hb, Option.bind_some, Res.apply]
  cases ρ.call x ts (as ++ bs) <;> rfl

/-! ### Codecs of types -/

/-- Types without tuples and without references that have code. -/
def coded : Ty → Bool
  | .prim _ => true
  | .vec t | .hashSet t | .option t => coded t
  | .nonZero t => nzArm t && coded t
  | .array t size => arrayArm size.toNat && coded t
  | .hashMap k v => coded k && coded v
  | .tuple _ | .external _ _ _ => false

theorem eval_call (ρ : Runtime) (Γ : Env) (f : Expr) (args : List Expr) : eval ρ Γ (.call f args) =
    (eval ρ Γ f).bind fun r => (evalArgs ρ Γ args).bind fun vs => (r.apply ρ vs).map .vals := by rw [eval]

theorem eval_callLines (ρ : Runtime) (Γ : Env) (f : Expr) (as bs : List Expr) : eval ρ Γ (.callLines f as bs) =
    (eval ρ Γ f).bind fun r => (evalArgs ρ Γ as).bind fun us => (evalArgs ρ Γ bs).bind fun vs =>
      (r.apply ρ (us ++ vs)).map .vals := by rw [eval]

theorem nzPrim_tree {p : Prim} (h : nzPrim p = true) : ∃ g, nzPrimTree p = some g := by
  cases p <;> first | exact ⟨_, rfl⟩ | cases h

theorem trees : ∀ (t : Ty), coded t = true → (∃ g, defTree t = some g) ∧ (∀ e, ∃ x, encTree e t = some x) ∧
    (∀ e, ∃ x, sizeTree e t = some x) ∧ ∃ x, decTree t = some x
  | .prim p, _ => ⟨⟨_, rfl⟩, fun _ => ⟨_, rfl⟩, fun _ => ⟨_, rfl⟩, _, rfl⟩
  | .vec t, hc => by
    obtain ⟨⟨g, hg⟩, he, hs, y, hd⟩ := trees t hc
    obtain ⟨x, he⟩ := he (var "v")
    obtain ⟨z, hs⟩ := hs (var "v")
    simp [defTree, encTree, sizeTree, decTree, decSingleTree, hg, he, hs, hd]
  | .hashSet t, hc => by
    obtain ⟨⟨g, hg⟩, he, hs, y, hd⟩ := trees t hc
    obtain ⟨x, he⟩ := he (var "v")
    obtain ⟨z, hs⟩ := hs (var "v")
    simp [defTree, encTree, sizeTree, decTree, decSingleTree, hg, he, hs, hd]
  | .option t, hc => by
    obtain ⟨⟨g, hg⟩, he, hs, y, hd⟩ := trees t hc
    obtain ⟨x, he⟩ := he (var "v")
    obtain ⟨z, hs⟩ := hs (var "v")
    simp [defTree, encTree, sizeTree, decTree, decSingleTree, hg, he, hs, hd]
  | .array t size, hc => by
    simp only [coded, Bool.and_eq_true] at hc
    obtain ⟨⟨g, hg⟩, he, hs, y, hd⟩ := trees t hc.2
    obtain ⟨x, he⟩ := he (var "v")
    obtain ⟨z, hs⟩ := hs (var "v")
    simp [defTree, encTree, sizeTree, decTree, decSingleTree, hg, he, hs, hd, hc.1]
  | .hashMap k v, hc => by
    simp only [coded, Bool.and_eq_true] at hc
    obtain ⟨⟨g, hg⟩, he, hs, y, hd⟩ := trees k hc.1
    obtain ⟨x, he⟩ := he (var "k")
    obtain ⟨z, hs⟩ := hs (var "k")
    obtain ⟨⟨g', hg'⟩, he', hs', y', hd'⟩ := trees v hc.2
    obtain ⟨x', he'⟩ := he' (var "v")
    obtain ⟨z', hs'⟩ := hs' (var "v")
    simp [defTree, encTree, sizeTree, decTree, decPairTree, hg, he, hs, hd, hg', he', hs', hd']
  | .nonZero (.prim p), hc => by
    simp only [coded, nzArm, Bool.and_true] at hc
    obtain ⟨g, hg⟩ := nzPrim_tree hc
    simp [defTree, encTree, sizeTree, decTree, nzArm, hg, hc]
  | .nonZero (.vec t), hc => by
    simp only [coded, nzArm, Bool.true_and] at hc
    obtain ⟨⟨g, hg⟩, he, hs, y, hd⟩ := trees t hc
    obtain ⟨x, he⟩ := he (var "v")
    obtain ⟨z, hs⟩ := hs (var "v")
    simp [defTree, encTree, sizeTree, decTree, decSingleTree, nzArm, hg, he, hs, hd]
  | .nonZero (.hashSet t), hc => by
    simp only [coded, nzArm, Bool.true_and] at hc
    obtain ⟨⟨g, hg⟩, he, hs, y, hd⟩ := trees t hc
    obtain ⟨x, he⟩ := he (var "v")
    obtain ⟨z, hs⟩ := hs (var "v")
    simp [defTree, encTree, sizeTree, decTree, decSingleTree, nzArm, hg, he, hs, hd]
  | .nonZero (.hashMap k v), hc => by
    simp only [coded, nzArm, Bool.true_and, Bool.and_eq_true] at hc
    obtain ⟨⟨g, hg⟩, he, hs, y, hd⟩ := trees k hc.1
    obtain ⟨x, he⟩ := he (var "k")
    obtain ⟨z, hs⟩ := hs (var "k")
    obtain ⟨⟨g', hg'⟩, he', hs', y', hd'⟩ := trees v hc.2
    obtain ⟨x', he'⟩ := he' (var "v")
    obtain ⟨z', hs'⟩ := hs' (var "v")
    simp [defTree, encTree, sizeTree, decTree, decPairTree, nzArm, hg, he, hs, hd, hg', he', hs', hd']
  | .nonZero (.option _), hc | .nonZero (.nonZero _), hc | .nonZero (.tuple _), hc | .nonZero (.array _ _), hc
  | .nonZero (.external _ _ _), hc | .tuple _, hc | .external _ _ _, hc => by simp [coded, nzArm] at hc

/-- Statements that depend on these variables only. -/
theorem closure_env {ρ : Runtime} {Γ Δ : Env} {ps : List (Text × GTy)} {b : Expr} (h : ∀ vs : List Val, vs.length = ps.length →
    eval ρ ((ps.map (·.1)).zip vs ++ Γ) b = eval ρ ((ps.map (·.1)).zip vs ++ Δ) b) :
    closure ρ Γ ps (returns b) = closure ρ Δ ps (returns b) := by
  funext vs
  simp only [closure, define, List.length_map]
  by_cases hl : ps.length = vs.length
  · rw [if_pos hl, if_pos hl]
    simp only [Option.bind_some, returns, runAll, run, evalList, h vs hl.symm]
    cases Option.bind (eval ρ ((ps.map (·.1)).zip vs ++ Δ) b) (·.values ρ) <;> rfl
  · rw [if_neg hl, if_neg hl]

theorem eval_func (ρ : Runtime) (Γ : Env) (sp : Bool) (ps : List (Text × GTy)) (rs : List GTy) (body : List Stmt) :
    eval ρ Γ (.func sp ps rs body) = some (.fn (closure ρ Γ ps body)) := by rw [eval]; rfl

/-- The variables agree as far as an expression for encoding is concerned. -/
structure Agree (Γ Δ : Env) (x : String) : Prop where
  left : lookup Γ (n "buf") = none
  right : lookup Δ (n "buf") = none
  var : lookup Γ (n x) = lookup Δ (n x)

theorem eval_id_congr {ρ : Runtime} {Γ Δ : Env} {x : Text} (h : lookup Γ x = lookup Δ x) : eval ρ Γ (.id x) = eval ρ Δ (.id x) := by
  simp only [eval, name, h]

theorem two {vs : List Val} (h : vs.length = 2) : ∃ a b, vs = [a, b] := by
  match vs, h with
  | [a, b], _ => exact ⟨a, b, rfl⟩

theorem one {vs : List Val} (h : vs.length = 1) : ∃ a, vs = [a] := by
  match vs, h with
  | [a], _ => exact ⟨a, rfl⟩

theorem encFunc_env {ρ : Runtime} {t : Ty} {x : String} {g : GTy} {b : Expr} (hx : n x ≠ n "w") (hx' : n "buf" ≠ n x)
    (ih : ∀ Γ Δ e y, encTree e t = some y → Agree Γ Δ "w" → eval ρ Γ e = eval ρ Δ e → eval ρ Γ y = eval ρ Δ y)
    (hb : encTree (var x) t = some b) {Γ Δ : Env} (h1 : lookup Γ (n "buf") = none) (h2 : lookup Δ (n "buf") = none) :
    closure ρ Γ [(n "w", byteSlice), (n x, g)] (returns b) = closure ρ Δ [(n "w", byteSlice), (n x, g)] (returns b) := by
  refine closure_env fun vs hl => ?_
  obtain ⟨a, c, rfl⟩ := two hl
  have hd : n "buf" ≠ n "w" := by decide
  refine ih _ _ _ _ hb ⟨?_, ?_, ?_⟩ ?_
  · simp only [List.map, List.zip_cons_cons, List.zip_nil_right, List.cons_append, List.nil_append, lookup_cons, if_neg hd, if_neg hx', h1]
  · simp only [List.map, List.zip_cons_cons, List.zip_nil_right, List.cons_append, List.nil_append, lookup_cons, if_neg hd, if_neg hx', h2]
  · simp only [List.map, List.zip_cons_cons, List.zip_nil_right, List.cons_append, List.nil_append, lookup_cons, if_pos]
  · refine eval_id_congr ?_
    simp only [List.map, List.zip_cons_cons, List.zip_nil_right, List.cons_append, List.nil_append, lookup_cons, if_neg hx, if_pos]

theorem sizeFunc_env {ρ : Runtime} {t : Ty} {x : String} {g : GTy} {b : Expr} (hx' : n "buf" ≠ n x)
    (ih : ∀ Γ Δ e y, sizeTree e t = some y → Agree Γ Δ "buf" → eval ρ Γ e = eval ρ Δ e → eval ρ Γ y = eval ρ Δ y)
    (hb : sizeTree (var x) t = some b) {Γ Δ : Env} (h1 : lookup Γ (n "buf") = none) (h2 : lookup Δ (n "buf") = none) :
    closure ρ Γ [(n x, g)] (returns b) = closure ρ Δ [(n x, g)] (returns b) := by
  refine closure_env fun vs hl => ?_
  obtain ⟨a, rfl⟩ := one hl
  have hl : lookup ((n x, a) :: Γ) (n "buf") = none := by rw [lookup_cons, if_neg hx', h1]
  have hr : lookup ((n x, a) :: Δ) (n "buf") = none := by rw [lookup_cons, if_neg hx', h2]
  refine ih _ _ _ _ hb ⟨hl, hr, hl.trans hr.symm⟩ (eval_id_congr ?_)
  simp only [List.map, List.zip_cons_cons, List.zip_nil_right, List.cons_append, List.nil_append, lookup_cons, if_pos]

theorem decFunc_env {ρ : Runtime} {t : Ty} {b : Expr}
    (ih : ∀ Γ Δ y, decTree t = some y → Agree Γ Δ "r" → eval ρ Γ y = eval ρ Δ y)
    (hb : decTree t = some b) {Γ Δ : Env} (h1 : lookup Γ (n "buf") = none) (h2 : lookup Δ (n "buf") = none) :
    closure ρ Γ [(n "r", byteSlice)] (returns b) = closure ρ Δ [(n "r", byteSlice)] (returns b) := by
  refine closure_env fun vs hl => ?_
  obtain ⟨a, rfl⟩ := one hl
  have hd : n "buf" ≠ n "r" := by decide
  refine ih _ _ _ hb ⟨?_, ?_, ?_⟩
  · show lookup ((n "r", a) :: Γ) (n "buf") = none
    rw [lookup_cons, if_neg hd, h1]
  · show lookup ((n "r", a) :: Δ) (n "buf") = none
    rw [lookup_cons, if_neg hd, h2]
  · show lookup ((n "r", a) :: Γ) (n "r") = lookup ((n "r", a) :: Δ) (n "r")
    rw [lookup_cons, lookup_cons, if_pos rfl, if_pos rfl]

/-- Expressions for encoding depend on `w` and the value only. -/
theorem enc_env {ρ : Runtime} : ∀ (t : Ty), coded t = true → ∀ Γ Δ e x, encTree e t = some x → Agree Γ Δ "w" →
    eval ρ Γ e = eval ρ Δ e → eval ρ Γ x = eval ρ Δ x
  | .prim p, _, Γ, Δ, e, x, hx, ha, he => by
    simp only [encTree, Option.some.injEq] at hx; subst hx
    simp only [eval_call, eval_buf ha.left, eval_buf ha.right, evalArgs, he, var, eval_id_congr ha.var]
  | .vec t, hc, Γ, Δ, e, x, hx, ha, he => by
    simp only [encTree, Option.bind_eq_bind, Option.bind_eq_some_iff, Option.pure_def, Option.some.injEq] at hx
    obtain ⟨g, _, b, hb, rfl⟩ := hx
    simp only [eval_call, eval_inst ha.left, eval_inst ha.right, evalArgs, he, encFunc, eval_func,
      encFunc_env (by decide) (by decide) (enc_env t hc) hb ha.left ha.right]
    rw [show eval ρ Γ (var "w") = eval ρ Δ (var "w") from eval_id_congr ha.var]
  | .hashSet t, hc, Γ, Δ, e, x, hx, ha, he => by
    simp only [encTree, Option.bind_eq_bind, Option.bind_eq_some_iff, Option.pure_def, Option.some.injEq] at hx
    obtain ⟨g, _, b, hb, rfl⟩ := hx
    simp only [eval_call, eval_inst ha.left, eval_inst ha.right, evalArgs, he, encFunc, eval_func,
      encFunc_env (by decide) (by decide) (enc_env t hc) hb ha.left ha.right]
    rw [show eval ρ Γ (var "w") = eval ρ Δ (var "w") from eval_id_congr ha.var]
  | .option t, hc, Γ, Δ, e, x, hx, ha, he => by
    simp only [encTree, Option.bind_eq_bind, Option.bind_eq_some_iff, Option.pure_def, Option.some.injEq] at hx
    obtain ⟨g, _, b, hb, rfl⟩ := hx
    simp only [eval_call, eval_inst ha.left, eval_inst ha.right, evalArgs, he, encFunc, eval_func,
      encFunc_env (by decide) (by decide) (enc_env t hc) hb ha.left ha.right]
    rw [show eval ρ Γ (var "w") = eval ρ Δ (var "w") from eval_id_congr ha.var]
  | .array t size, hc, Γ, Δ, e, x, hx, ha, he => by
    simp only [coded, Bool.and_eq_true] at hc
    simp only [encTree, hc.1, if_true] at hx
    simp only [Option.bind_eq_bind, Option.bind_eq_some_iff, Option.pure_def, Option.some.injEq] at hx
    obtain ⟨g, _, b, hb, rfl⟩ := hx
    simp only [eval_call, eval_inst ha.left, eval_inst ha.right, evalArgs, he, encFunc, eval_func,
      encFunc_env (by decide) (by decide) (enc_env t hc.2) hb ha.left ha.right]
    rw [show eval ρ Γ (var "w") = eval ρ Δ (var "w") from eval_id_congr ha.var]
  | .hashMap k v, hc, Γ, Δ, e, x, hx, ha, he => by
    simp only [coded, Bool.and_eq_true] at hc
    simp only [encTree, Option.bind_eq_bind, Option.bind_eq_some_iff, Option.pure_def, Option.some.injEq] at hx
    obtain ⟨g, _, g', _, b, hb, b', hb', rfl⟩ := hx
    simp only [eval_callLines, eval_inst ha.left, eval_inst ha.right, evalArgs, he, encFunc, eval_func,
      encFunc_env (by decide) (by decide) (enc_env k hc.1) hb ha.left ha.right,
      encFunc_env (by decide) (by decide) (enc_env v hc.2) hb' ha.left ha.right]
    rw [show eval ρ Γ (var "w") = eval ρ Δ (var "w") from eval_id_congr ha.var]
  | .nonZero t, hc, Γ, Δ, e, x, hx, ha, he => by
    simp only [coded, Bool.and_eq_true] at hc
    simp only [encTree, hc.1, if_true] at hx
    refine enc_env t hc.2 Γ Δ _ x hx ha ?_
    simp only [eval, he, evalArgs]
  | .tuple _, hc, _, _, _, _, _, _, _ | .external _ _ _, hc, _, _, _, _, _, _, _ => by cases hc

/-- Expressions for sizes depend on the value only. -/
theorem size_env {ρ : Runtime} : ∀ (t : Ty), coded t = true → ∀ Γ Δ e x, sizeTree e t = some x → Agree Γ Δ "buf" →
    eval ρ Γ e = eval ρ Δ e → eval ρ Γ x = eval ρ Δ x
  | .prim p, _, Γ, Δ, e, x, hx, ha, he => by
    simp only [sizeTree, Option.some.injEq] at hx; subst hx
    simp only [eval_call, eval_buf ha.left, eval_buf ha.right, evalArgs, he]
  | .vec t, hc, Γ, Δ, e, x, hx, ha, he => by
    simp only [sizeTree, Option.bind_eq_bind, Option.bind_eq_some_iff, Option.pure_def, Option.some.injEq] at hx
    obtain ⟨g, _, b, hb, rfl⟩ := hx
    simp only [eval_call, eval_inst ha.left, eval_inst ha.right, evalArgs, he, sizeFunc, eval_func,
      sizeFunc_env (by decide) (size_env t hc) hb ha.left ha.right]
  | .hashSet t, hc, Γ, Δ, e, x, hx, ha, he => by
    simp only [sizeTree, Option.bind_eq_bind, Option.bind_eq_some_iff, Option.pure_def, Option.some.injEq] at hx
    obtain ⟨g, _, b, hb, rfl⟩ := hx
    simp only [eval_call, eval_inst ha.left, eval_inst ha.right, evalArgs, he, sizeFunc, eval_func,
      sizeFunc_env (by decide) (size_env t hc) hb ha.left ha.right]
  | .option t, hc, Γ, Δ, e, x, hx, ha, he => by
    simp only [sizeTree, Option.bind_eq_bind, Option.bind_eq_some_iff, Option.pure_def, Option.some.injEq] at hx
    obtain ⟨g, _, b, hb, rfl⟩ := hx
    simp only [eval_call, eval_inst ha.left, eval_inst ha.right, evalArgs, he, sizeFunc, eval_func,
      sizeFunc_env (by decide) (size_env t hc) hb ha.left ha.right]
  | .array t size, hc, Γ, Δ, e, x, hx, ha, he => by
    simp only [coded, Bool.and_eq_true] at hc
    simp only [sizeTree, hc.1, if_true] at hx
    simp only [Option.bind_eq_bind, Option.bind_eq_some_iff, Option.pure_def, Option.some.injEq] at hx
    obtain ⟨g, _, b, hb, rfl⟩ := hx
    simp only [eval_call, eval_inst ha.left, eval_inst ha.right, evalArgs, he, sizeFunc, eval_func,
      sizeFunc_env (by decide) (size_env t hc.2) hb ha.left ha.right]
  | .hashMap k v, hc, Γ, Δ, e, x, hx, ha, he => by
    simp only [coded, Bool.and_eq_true] at hc
    simp only [sizeTree, Option.bind_eq_bind, Option.bind_eq_some_iff, Option.pure_def, Option.some.injEq] at hx
    obtain ⟨g, _, g', _, b, hb, b', hb', rfl⟩ := hx
    simp only [eval_callLines, eval_inst ha.left, eval_inst ha.right, evalArgs, he, sizeFunc, eval_func,
      sizeFunc_env (by decide) (size_env k hc.1) hb ha.left ha.right,
      sizeFunc_env (by decide) (size_env v hc.2) hb' ha.left ha.right]
  | .nonZero t, hc, Γ, Δ, e, x, hx, ha, he => by
    simp only [coded, Bool.and_eq_true] at hc
    simp only [sizeTree, hc.1, if_true] at hx
    refine size_env t hc.2 Γ Δ _ x hx ha ?_
    simp only [eval, he, evalArgs]
  | .tuple _, hc, _, _, _, _, _, _, _ | .external _ _ _, hc, _, _, _, _, _, _, _ => by cases hc

theorem decSingle_env {ρ : Runtime} {t : Ty} {f : Text} {g : Option GTy} {x : Expr} {Γ Δ : Env} (ha : Agree Γ Δ "r")
    (ih : ∀ Γ Δ y, decTree t = some y → Agree Γ Δ "r" → eval ρ Γ y = eval ρ Δ y) (hx : decSingleTree f g (decTree t) = some x) :
    eval ρ Γ x = eval ρ Δ x := by
  simp only [decSingleTree, Option.bind_eq_bind, Option.bind_eq_some_iff, Option.pure_def, Option.some.injEq] at hx
  obtain ⟨g, _, b, hb, rfl⟩ := hx
  simp only [eval_call, eval_inst ha.left, eval_inst ha.right, evalArgs, decFunc, eval_func, decFunc_env ih hb ha.left ha.right]
  rw [show eval ρ Γ (var "r") = eval ρ Δ (var "r") from eval_id_congr ha.var]

theorem decPair_env {ρ : Runtime} {k v : Ty} {f : Text} {g g' : Option GTy} {x : Expr} {Γ Δ : Env} (ha : Agree Γ Δ "r")
    (ih : ∀ Γ Δ y, decTree k = some y → Agree Γ Δ "r" → eval ρ Γ y = eval ρ Δ y)
    (ih' : ∀ Γ Δ y, decTree v = some y → Agree Γ Δ "r" → eval ρ Γ y = eval ρ Δ y)
    (hx : decPairTree f g g' (decTree k) (decTree v) = some x) :
    eval ρ Γ x = eval ρ Δ x := by
  simp only [decPairTree, Option.bind_eq_bind, Option.bind_eq_some_iff, Option.pure_def, Option.some.injEq] at hx
  obtain ⟨g, _, g', _, b, hb, b', hb', rfl⟩ := hx
  simp only [eval_callLines, eval_inst ha.left, eval_inst ha.right, evalArgs, decFunc, eval_func,
    decFunc_env ih hb ha.left ha.right, decFunc_env ih' hb' ha.left ha.right]
  rw [show eval ρ Γ (var "r") = eval ρ Δ (var "r") from eval_id_congr ha.var]

/-- Expressions for decoding depend on `r` only. -/
theorem dec_env {ρ : Runtime} : ∀ (t : Ty), coded t = true → ∀ Γ Δ x, decTree t = some x → Agree Γ Δ "r" → eval ρ Γ x = eval ρ Δ x
  | .prim p, _, Γ, Δ, x, hx, ha => by
    simp only [decTree, Option.some.injEq] at hx; subst hx
    simp only [eval_call, eval_buf ha.left, eval_buf ha.right, evalArgs, var, eval_id_congr ha.var]
  | .vec t, hc, Γ, Δ, x, hx, ha | .hashSet t, hc, Γ, Δ, x, hx, ha | .option t, hc, Γ, Δ, x, hx, ha =>
    decSingle_env ha (dec_env t hc) (by rw [decTree] at hx; exact hx)
  | .array t size, hc, Γ, Δ, x, hx, ha => by
    simp only [coded, Bool.and_eq_true] at hc
    simp only [decTree, hc.1, if_true] at hx
    exact decSingle_env ha (dec_env t hc.2) hx
  | .hashMap k v, hc, Γ, Δ, x, hx, ha => by
    simp only [coded, Bool.and_eq_true] at hc
    exact decPair_env ha (dec_env k hc.1) (dec_env v hc.2) (by rw [decTree] at hx; exact hx)
  | .nonZero (.prim p), hc, Γ, Δ, x, hx, ha => by
    simp only [coded, nzArm, Bool.and_true] at hc
    simp only [decTree, hc, if_true, Option.some.injEq] at hx; subst hx
    simp only [eval_call, eval_buf ha.left, eval_buf ha.right, evalArgs, var, eval_id_congr ha.var]
  | .nonZero (.vec t), hc, Γ, Δ, x, hx, ha | .nonZero (.hashSet t), hc, Γ, Δ, x, hx, ha => by
    simp only [coded, nzArm, Bool.true_and] at hc
    exact decSingle_env ha (dec_env t hc) (by rw [decTree] at hx; exact hx)
  | .nonZero (.hashMap k v), hc, Γ, Δ, x, hx, ha => by
    simp only [coded, nzArm, Bool.true_and, Bool.and_eq_true] at hc
    exact decPair_env ha (dec_env k hc.1) (dec_env v hc.2) (by rw [decTree] at hx; exact hx)
  | .nonZero (.option _), hc, _, _, _, _, _ | .nonZero (.nonZero _), hc, _, _, _, _, _ | .nonZero (.tuple _), hc, _, _, _, _, _
  | .nonZero (.array _ _), hc, _, _, _, _, _ | .nonZero (.external _ _ _), hc, _, _, _, _, _ | .tuple _, hc, _, _, _, _, _
  | .external _ _ _, hc, _, _, _, _, _ => by simp [coded, nzArm] at hc

/-- The expressions for a value `v` of the type, which is read as `u`. -/
structure TyCoded (ρ : Runtime) (enc size : Expr → Option Expr) (dec : Option Expr) (v u : Val) (bs : List UInt8) : Prop where
  enc : ∀ Γ e x w, enc e = some x → lookup Γ (n "buf") = none → Is ρ Γ e v → lookup Γ (n "w") = some (.bytes w) →
    valueOf ρ Γ x = some [.bytes (w ++ bs)]
  size : ∀ Γ e x, size e = some x → lookup Γ (n "buf") = none → Is ρ Γ e v → valueOf ρ Γ x = some [.num bs.length]
  dec : ∀ Γ x rest, dec = some x → lookup Γ (n "buf") = none → lookup Γ (n "r") = some (.bytes (bs ++ rest)) →
    valueOf ρ Γ x = some [.bytes rest, u, .nil]

/-- The function for the encoding of an element. -/
def encC (ρ : Runtime) (x : String) (b : Expr) : List Val → Option (List Val) :=
  closure ρ [] [(n "w", byteSlice), (n x, byteSlice)] (returns b)

/-- The function for its size. -/
def sizeC (ρ : Runtime) (x : String) (b : Expr) : List Val → Option (List Val) := closure ρ [] [(n x, byteSlice)] (returns b)

/-- The function for its decoding. -/
def decC (ρ : Runtime) (b : Expr) : List Val → Option (List Val) := closure ρ [] [(n "r", byteSlice)] (returns b)

theorem element {ρ : Runtime} {t : Ty} {P : Val → Prop} {x : String} {b s d : Expr} (hx : n x ≠ n "w") (hx' : n "buf" ≠ n x)
    (h : ∀ v, P v → ∃ bs, TyCoded ρ (encTree · t) (sizeTree · t) (decTree t) v v bs)
    (hb : encTree (var x) t = some b) (hs : sizeTree (var x) t = some s) (hd : decTree t = some d) :
    Codec (encC ρ x b) (sizeC ρ x s) (decC ρ d) P := by
  intro v hv
  obtain ⟨bs, hc⟩ := h v hv
  refine ⟨bs, ?_, ?_, ?_⟩
  · intro w
    have hdef : define [] [n "w", n x] [.bytes w, v] = some [(n "w", .bytes w), (n x, v)] := rfl
    have hv := hc.enc [(n "w", .bytes w), (n x, v)] (var x) b w hb
      (by rw [lookup_cons, if_neg (by decide), lookup_cons, if_neg hx']; rfl)
      (.var (by rw [lookup_cons, if_neg hx, lookup_cons, if_pos rfl])) (by rw [lookup_cons, if_pos rfl])
    simp only [encC, closure, List.map_cons, List.map_nil, hdef, Option.bind_some, runAll_ret hv, Out.result]
  · have hdef : define [] [n x] [v] = some [(n x, v)] := rfl
    have hv := hc.size [(n x, v)] (var x) s hs (by rw [lookup_cons, if_neg hx']; rfl) (.var (by rw [lookup_cons, if_pos rfl]))
    simp only [sizeC, closure, List.map_cons, List.map_nil, hdef, Option.bind_some, runAll_ret hv, Out.result]
  · intro rest
    have hdef : define [] [n "r"] [.bytes (bs ++ rest)] = some [(n "r", .bytes (bs ++ rest))] := rfl
    have hv := hc.dec [(n "r", .bytes (bs ++ rest))] d rest hd (by rw [lookup_cons, if_neg (by decide)]; rfl)
      (by rw [lookup_cons, if_pos rfl])
    simp only [decC, closure, List.map_cons, List.map_nil, hdef, Option.bind_some, runAll_ret hv, Out.result]

theorem lookup_nil (x : Text) : lookup [] x = none := rfl

theorem single {ρ : Runtime} {t : Ty} (hc : coded t = true) {F S D : Text} {g : GTy} {b s d : Expr} {v u : Val} {bs : List UInt8}
    {enc size : Expr → Option Expr} (hg : defTree t = some g)
    (hb : encTree (var "v") t = some b) (hs : sizeTree (var "v") t = some s) (hd : decTree t = some d)
    (he : ∀ e, enc e = some (.call (.inst (buf F) [g]) [var "w", e, encFunc "v" g b]))
    (hz : ∀ e, size e = some (.call (.inst (buf S) [g]) [e, sizeFunc "v" g s]))
    (h : Coded (lib ρ F [g] [encC ρ "v" b]) (lib ρ S [g] [sizeC ρ "v" s]) (lib ρ D [g] [decC ρ d]) v u bs) :
    TyCoded ρ enc size (decSingleTree D (defTree t) (decTree t)) v u bs := by
  refine ⟨?_, ?_, ?_⟩
  · intro Γ e x w hx hbuf hv hw
    rw [he] at hx
    cases hx
    have hcl : closure ρ Γ [(n "w", byteSlice), (n "v", g)] (returns b) = encC ρ "v" b :=
      encFunc_env (by decide) (by decide) (enc_env t hc) hb hbuf (lookup_nil _)
    refine (value_call (eval_inst hbuf _ _) (evalArgs_val (.var hw) (evalArgs_val hv (evalArgs_fn (evalArgs_nil _ _))))).trans ?_
    rw [hcl]
    exact h.enc w
  · intro Γ e x hx hbuf hv
    rw [hz] at hx
    cases hx
    have hcl : closure ρ Γ [(n "v", g)] (returns s) = sizeC ρ "v" s :=
      sizeFunc_env (by decide) (size_env t hc) hs hbuf (lookup_nil _)
    refine (value_call (eval_inst hbuf _ _) (evalArgs_val hv (evalArgs_fn (evalArgs_nil _ _)))).trans ?_
    rw [hcl]
    exact h.size
  · intro Γ x rest hx hbuf hr
    simp only [decSingleTree, hg, hd, Option.bind_eq_bind, Option.bind_some, Option.pure_def, Option.some.injEq] at hx
    subst hx
    have hcl : closure ρ Γ [(n "r", byteSlice)] (returns d) = decC ρ d :=
      decFunc_env (dec_env t hc) hd hbuf (lookup_nil _)
    refine (value_call (eval_inst hbuf _ _) (evalArgs_val (.var hr) (evalArgs_fn (evalArgs_nil _ _)))).trans ?_
    rw [hcl]
    exact h.dec rest

theorem pair {ρ : Runtime} {t t' : Ty} (hc : coded t = true) (hc' : coded t' = true) {F S D : Text} {g g' : GTy}
    {b s d b' s' d' : Expr} {v u : Val} {bs : List UInt8}
    {enc size : Expr → Option Expr} (hg : defTree t = some g) (hg' : defTree t' = some g')
    (hb : encTree (var "k") t = some b) (hs : sizeTree (var "k") t = some s) (hd : decTree t = some d)
    (hb' : encTree (var "v") t' = some b') (hs' : sizeTree (var "v") t' = some s') (hd' : decTree t' = some d')
    (he : ∀ e, enc e = some (.callLines (.inst (buf F) [g, g']) [var "w", e] [encFunc "k" g b, encFunc "v" g' b']))
    (hz : ∀ e, size e = some (.callLines (.inst (buf S) [g, g']) [e] [sizeFunc "k" g s, sizeFunc "v" g' s']))
    (h : Coded (lib ρ F [g, g'] [encC ρ "k" b, encC ρ "v" b']) (lib ρ S [g, g'] [sizeC ρ "k" s, sizeC ρ "v" s'])
      (lib ρ D [g, g'] [decC ρ d, decC ρ d']) v u bs) :
    TyCoded ρ enc size (decPairTree D (defTree t) (defTree t') (decTree t) (decTree t')) v u bs := by
  refine ⟨?_, ?_, ?_⟩
  · intro Γ e x w hx hbuf hv hw
    rw [he] at hx
    cases hx
    have hcl : closure ρ Γ [(n "w", byteSlice), (n "k", g)] (returns b) = encC ρ "k" b :=
      encFunc_env (by decide) (by decide) (enc_env t hc) hb hbuf (lookup_nil _)
    have hcl' : closure ρ Γ [(n "w", byteSlice), (n "v", g')] (returns b') = encC ρ "v" b' :=
      encFunc_env (by decide) (by decide) (enc_env t' hc') hb' hbuf (lookup_nil _)
    refine (value_callLines (eval_inst hbuf _ _) (evalArgs_val (.var hw) (evalArgs_val hv (evalArgs_nil _ _)))
      (evalArgs_fn (evalArgs_fn (evalArgs_nil _ _)))).trans ?_
    rw [hcl, hcl']
    exact h.enc w
  · intro Γ e x hx hbuf hv
    rw [hz] at hx
    cases hx
    have hcl : closure ρ Γ [(n "k", g)] (returns s) = sizeC ρ "k" s :=
      sizeFunc_env (by decide) (size_env t hc) hs hbuf (lookup_nil _)
    have hcl' : closure ρ Γ [(n "v", g')] (returns s') = sizeC ρ "v" s' :=
      sizeFunc_env (by decide) (size_env t' hc') hs' hbuf (lookup_nil _)
    refine (value_callLines (eval_inst hbuf _ _) (evalArgs_val hv (evalArgs_nil _ _))
      (evalArgs_fn (evalArgs_fn (evalArgs_nil _ _)))).trans ?_
    rw [hcl, hcl']
    exact h.size
  · intro Γ x rest hx hbuf hr
    simp only [decPairTree, hg, hd, hg', hd', Option.bind_eq_bind, Option.bind_some, Option.pure_def, Option.some.injEq] at hx
    subst hx
    have hcl : closure ρ Γ [(n "r", byteSlice)] (returns d) = decC ρ d :=
      decFunc_env (dec_env t hc) hd hbuf (lookup_nil _)
    have hcl' : closure ρ Γ [(n "r", byteSlice)] (returns d') = decC ρ d' :=
      decFunc_env (dec_env t' hc') hd' hbuf (lookup_nil _)
    refine (value_callLines (eval_inst hbuf _ _) (evalArgs_val (.var hr) (evalArgs_nil _ _))
      (evalArgs_fn (evalArgs_fn (evalArgs_nil _ _)))).trans ?_
    rw [hcl, hcl']
    exact h.dec rest

theorem leaf {ρ : Runtime} {F S D : Text} {v u : Val} {bs : List UInt8}
    (h : Coded (lib ρ F [] []) (lib ρ S [] []) (lib ρ D [] []) v u bs) :
    TyCoded ρ (fun e => some (.call (buf F) [var "w", e])) (fun e => some (.call (buf S) [e]))
      (some (.call (buf D) [var "r"])) v u bs := by
  refine ⟨?_, ?_, ?_⟩
  · intro Γ e x w hx hbuf hv hw
    cases hx
    refine (value_call (eval_buf hbuf _) (evalArgs_val (.var hw) (evalArgs_val hv (evalArgs_nil _ _)))).trans ?_
    exact h.enc w
  · intro Γ e x hx hbuf hv
    cases hx
    refine (value_call (eval_buf hbuf _) (evalArgs_val hv (evalArgs_nil _ _))).trans ?_
    exact h.size
  · intro Γ x rest hx hbuf hr
    cases hx
    refine (value_call (eval_buf hbuf _) (evalArgs_val (.var hr) (evalArgs_nil _ _))).trans ?_
    exact h.dec rest

theorem is_get {ρ : Runtime} {Leaf : Prim → Val → Prop} {tag : Nat → List UInt8} (hf : Faithful ρ Leaf tag) {Γ : Env} {e : Expr}
    {x : Val} (h : Is ρ Γ e (.nonZero x)) : Is ρ Γ (.call (.sel e (n "Get")) []) x := by
  obtain ⟨r, h1, h2⟩ := h
  have hm : eval ρ Γ (.sel e (n "Get")) = some (.member (.nonZero x) (n "Get")) := by
    cases r with
    | package => simp [Res.value, Res.values] at h2
    | _ => simp [eval, h1, h2]
  refine ⟨.vals [x], ?_, rfl⟩
  rw [eval_call, hm, evalArgs_nil]
  simp [Res.apply, argVals, hf.get]

/-- For `non_zero<..>` the value is taken out first. -/
theorem non_zero {ρ : Runtime} {Leaf : Prim → Val → Prop} {tag : Nat → List UInt8} (hf : Faithful ρ Leaf tag) {t : Ty} {D : Option Expr}
    (ht : nzArm t = true) {x : Val} {bs : List UInt8}
    (h : TyCoded ρ (encTree · t) (sizeTree · t) D x (.nonZero x) bs) :
    TyCoded ρ (encTree · (.nonZero t)) (sizeTree · (.nonZero t)) D (.nonZero x) (.nonZero x) bs := by
  refine ⟨?_, ?_, h.dec⟩
  · intro Γ e y w hy hbuf hv hw
    simp only [encTree, ht, if_true] at hy
    exact h.enc Γ _ y w hy hbuf (is_get hf hv) hw
  · intro Γ e y hy hbuf hv
    simp only [sizeTree, ht, if_true] at hy
    exact h.size Γ _ y hy hbuf (is_get hf hv)

theorem codec {ρ : Runtime} {Leaf : Prim → Val → Prop} {tag : Nat → List UInt8} (hf : Faithful ρ Leaf tag) : ∀ (t : Ty),
    coded t = true → ∀ v, Fits Leaf t v → ∃ bs, TyCoded ρ (encTree · t) (sizeTree · t) (decTree t) v v bs
  | .prim p, _, v, hv => by
    obtain ⟨bs, h⟩ := hf.prim p v (by simpa [Fits] using hv)
    exact ⟨bs, leaf h⟩
  | .vec t, hc, v, hv => by
    obtain ⟨⟨g, hg⟩, he, hs, d, hd⟩ := trees t hc
    obtain ⟨b, hb⟩ := he (var "v")
    obtain ⟨s, hs⟩ := hs (var "v")
    obtain ⟨bs, h⟩ := hf.vec g (element (by decide) (by decide) (codec hf t hc) hb hs hd) v (by simpa [Fits] using hv)
    exact ⟨bs, by rw [decTree]; exact single (t := t) hc hg hb hs hd (fun e => by simp [encTree, hg, hb]) (fun e => by simp [sizeTree, hg, hs]) h⟩
  | .hashSet t, hc, v, hv => by
    obtain ⟨⟨g, hg⟩, he, hs, d, hd⟩ := trees t hc
    obtain ⟨b, hb⟩ := he (var "v")
    obtain ⟨s, hs⟩ := hs (var "v")
    obtain ⟨bs, h⟩ := hf.set g (element (by decide) (by decide) (codec hf t hc) hb hs hd) v (by simpa [Fits] using hv)
    exact ⟨bs, by rw [decTree]; exact single (t := t) hc hg hb hs hd (fun e => by simp [encTree, hg, hb]) (fun e => by simp [sizeTree, hg, hs]) h⟩
  | .option t, hc, v, hv => by
    obtain ⟨⟨g, hg⟩, he, hs, d, hd⟩ := trees t hc
    obtain ⟨b, hb⟩ := he (var "v")
    obtain ⟨s, hs⟩ := hs (var "v")
    obtain ⟨bs, h⟩ := hf.option g (element (by decide) (by decide) (codec hf t hc) hb hs hd) v (by simpa [Fits] using hv)
    exact ⟨bs, by rw [decTree]; exact single (t := t) hc hg hb hs hd (fun e => by simp [encTree, hg, hb]) (fun e => by simp [sizeTree, hg, hs]) h⟩
  | .array t size, hc, v, hv => by
    simp only [coded, Bool.and_eq_true] at hc
    obtain ⟨⟨g, hg⟩, he, hs, d, hd⟩ := trees t hc.2
    obtain ⟨b, hb⟩ := he (var "v")
    obtain ⟨s, hs⟩ := hs (var "v")
    obtain ⟨bs, h⟩ := hf.array g size.toNat (element (by decide) (by decide) (codec hf t hc.2) hb hs hd) v (by simpa [Fits] using hv)
    refine ⟨bs, ?_⟩
    have hd' : decTree (.array t size) = decSingleTree (n "DecodeArray" ++ printNat size.toNat) (defTree t) (decTree t) := by
      simp [decTree, hc.1]
    rw [hd']
    exact single hc.2 hg hb hs hd (fun e => by simp [encTree, hg, hb, hc.1]) (fun e => by simp [sizeTree, hg, hs, hc.1]) h
  | .hashMap k t, hc, v, hv => by
    simp only [coded, Bool.and_eq_true] at hc
    obtain ⟨⟨g, hg⟩, he, hs, d, hd⟩ := trees k hc.1
    obtain ⟨b, hb⟩ := he (var "k")
    obtain ⟨s, hs⟩ := hs (var "k")
    obtain ⟨⟨g', hg'⟩, he', hs', d', hd'⟩ := trees t hc.2
    obtain ⟨b', hb'⟩ := he' (var "v")
    obtain ⟨s', hs'⟩ := hs' (var "v")
    obtain ⟨bs, h⟩ := hf.map g g' (element (by decide) (by decide) (codec hf k hc.1) hb hs hd)
      (element (by decide) (by decide) (codec hf t hc.2) hb' hs' hd') v (by simpa [Fits] using hv)
    exact ⟨bs, by
      rw [decTree]
      exact pair hc.1 hc.2 hg hg' hb hs hd hb' hs' hd' (fun e => by simp [encTree, hg, hb, hg', hb'])
        (fun e => by simp [sizeTree, hg, hs, hg', hs']) h⟩
  | .nonZero (.prim p), hc, v, hv => by
    simp only [coded, nzArm, Bool.and_true] at hc
    simp only [Fits] at hv
    obtain ⟨x, rfl, hx, hz⟩ := hv
    obtain ⟨bs, h⟩ := hf.nzPrim p hc x hx hz
    have hd : decTree (.nonZero (.prim p)) = some (.call (buf (n "DecodeNonZero" ++ n (fnPrim p))) [var "r"]) := by
      simp [decTree, hc]
    exact ⟨bs, by rw [hd]; exact non_zero hf (t := .prim p) hc (leaf h)⟩
  | .nonZero (.vec t), hc, v, hv => by
    simp only [coded, nzArm, Bool.true_and] at hc
    simp only [Fits] at hv
    obtain ⟨x, rfl, hx, hz⟩ := hv
    obtain ⟨⟨g, hg⟩, he, hs, d, hd⟩ := trees t hc
    obtain ⟨b, hb⟩ := he (var "v")
    obtain ⟨s, hs⟩ := hs (var "v")
    obtain ⟨bs, h⟩ := hf.nzVec g (element (by decide) (by decide) (codec hf t hc) hb hs hd) x hx hz
    exact ⟨bs, by
      rw [decTree]
      exact non_zero hf rfl (single hc hg hb hs hd (fun e => by simp [encTree, hg, hb]) (fun e => by simp [sizeTree, hg, hs]) h)⟩
  | .nonZero (.hashSet t), hc, v, hv => by
    simp only [coded, nzArm, Bool.true_and] at hc
    simp only [Fits] at hv
    obtain ⟨x, rfl, hx, hz⟩ := hv
    obtain ⟨⟨g, hg⟩, he, hs, d, hd⟩ := trees t hc
    obtain ⟨b, hb⟩ := he (var "v")
    obtain ⟨s, hs⟩ := hs (var "v")
    obtain ⟨bs, h⟩ := hf.nzSet g (element (by decide) (by decide) (codec hf t hc) hb hs hd) x hx hz
    exact ⟨bs, by
      rw [decTree]
      exact non_zero hf rfl (single hc hg hb hs hd (fun e => by simp [encTree, hg, hb]) (fun e => by simp [sizeTree, hg, hs]) h)⟩
  | .nonZero (.hashMap k t), hc, v, hv => by
    simp only [coded, nzArm, Bool.true_and, Bool.and_eq_true] at hc
    simp only [Fits] at hv
    obtain ⟨x, rfl, hx, hz⟩ := hv
    obtain ⟨⟨g, hg⟩, he, hs, d, hd⟩ := trees k hc.1
    obtain ⟨b, hb⟩ := he (var "k")
    obtain ⟨s, hs⟩ := hs (var "k")
    obtain ⟨⟨g', hg'⟩, he', hs', d', hd'⟩ := trees t hc.2
    obtain ⟨b', hb'⟩ := he' (var "v")
    obtain ⟨s', hs'⟩ := hs' (var "v")
    obtain ⟨bs, h⟩ := hf.nzMap g g' (element (by decide) (by decide) (codec hf k hc.1) hb hs hd)
      (element (by decide) (by decide) (codec hf t hc.2) hb' hs' hd') x hx hz
    exact ⟨bs, by
      rw [decTree]
      exact non_zero hf rfl (pair hc.1 hc.2 hg hg' hb hs hd hb' hs' hd' (fun e => by simp [encTree, hg, hb, hg', hb'])
        (fun e => by simp [sizeTree, hg, hs, hg', hs']) h)⟩
  | .nonZero (.option _), hc, _, _ | .nonZero (.nonZero _), hc, _, _ | .nonZero (.tuple _), hc, _, _
  | .nonZero (.array _ _), hc, _, _ | .nonZero (.external _ _ _), hc, _, _ | .tuple _, hc, _, _
  | .external _ _ _, hc, _, _ => by simp [coded, nzArm] at hc

end Mabo.Go
