import Verif.Go.RunMethod
/-! What emitted methods do whatever the runtime library does. -/
namespace Mabo.Go
open Mabo.Simplify Mabo.Spec.GoRun
open Mabo.Schema (Prim FieldKind)
open Mabo.Parse (Text printNat)

/-- The variables behind a statement. -/
def outEnv : Out → Env
  | .next Γ | .brk Γ | .ret _ Γ => Γ

theorem keys_leave {Γ : Env} {L : List Text} {m : Nat} {ext : List Text} (h : keys Γ = ext ++ L) (hm : L.length = m) :
    keys (leave m Γ) = L := by
  have hl : Γ.length = ext.length + L.length := by
    have := congrArg List.length h
    simpa [keys] using this
  rw [leave, keys, List.map_drop, show List.map (·.1) Γ = ext ++ L from h, hl, hm,
    show ext.length + m - m = ext.length by omega]
  simp

theorem out_leave (m : Nat) (o : Out) : outEnv (o.leave m) = leave m (outEnv o) := by cases o <;> rfl

theorem out_caught (o : Out) : outEnv o.caught = outEnv o := by cases o <;> rfl

theorem store_keys {Γ Δ : Env} {v : Val} {x : Expr} (h : store Γ v x = some Δ) : keys Δ = keys Γ := by
  unfold store at h
  split at h
  · split at h
    · injection h with h; rw [← h, keys_update]
    · cases h
  · split at h
    · injection h with h; rw [← h, keys_update]
    · cases h
  · cases h

theorem define_keys {Γ Δ : Env} {xs : List Text} {vs : List Val} (h : define Γ xs vs = some Δ) : keys Δ = xs ++ keys Γ := by
  unfold define at h
  split at h
  · rename_i hl
    injection h with h; rw [← h]
    simp only [keys, List.map_append]
    congr 1
    rw [List.map_fst_zip]
    omega
  · cases h

theorem iterate_keys {cond : Env → Option Bool} {body : Env → Option Out} {L : List Text}
    (hb : ∀ Γ o, keys Γ = L → body Γ = some o → keys (outEnv o) = L) : ∀ (k : Nat) (Γ : Env) (o : Out), keys Γ = L →
    iterate cond body k Γ = some o → keys (outEnv o) = L := by
  intro k
  induction k with
  | zero => intro Γ o _ h; simp [iterate] at h
  | succ k ih =>
    intro Γ o hk h
    simp only [iterate] at h
    cases hc : cond Γ with
    | none => simp [hc] at h
    | some c =>
      cases c with
      | false => simp only [hc, Option.some.injEq] at h; rw [← h]; exact hk
      | true =>
        simp only [hc] at h
        cases hbo : body Γ with
        | none => simp [hbo] at h
        | some p =>
          have hp := hb Γ p hk hbo
          cases p with
          | next Δ => simp only [hbo] at h; exact ih Δ o hp h
          | brk Δ => simp only [hbo, Option.some.injEq] at h; rw [← h]; exact hp
          | ret vs Δ => simp only [hbo, Option.some.injEq] at h; rw [← h]; exact hp

mutual
/-- A statement only adds variables. -/
theorem run_keys (ρ : Runtime) (k : Nat) : (s : Stmt) → ∀ (Γ : Env) (o : Out), run ρ k Γ s = some o →
    ∃ ext, keys (outEnv o) = ext ++ keys Γ
  | .define xs e, Γ, o, h => by
    simp only [run, Option.bind_eq_some_iff, Option.map_eq_some_iff] at h
    obtain ⟨vs, _, Δ, hd, rfl⟩ := h
    exact ⟨xs, define_keys hd⟩
  | .assign x e, Γ, o, h => by
    simp only [run, Option.bind_eq_some_iff, Option.map_eq_some_iff] at h
    obtain ⟨v, _, Δ, hd, rfl⟩ := h
    exact ⟨[], store_keys hd⟩
  | .addAssign x e, Γ, o, h => by
    simp only [run, Option.bind_eq_some_iff, Option.map_eq_some_iff] at h
    obtain ⟨a, _, b, _, v, _, Δ, hd, rfl⟩ := h
    exact ⟨[], store_keys hd⟩
  | .varDecl x t, Γ, o, h => by
    simp only [run, Option.some.injEq] at h
    subst h; exact ⟨[x], rfl⟩
  | .ret es, Γ, o, h => by
    simp only [run, Option.map_eq_some_iff] at h
    obtain ⟨vs, _, rfl⟩ := h
    exact ⟨[], rfl⟩
  | .ifThen c body, Γ, o, h => by
    simp only [run, Option.bind_eq_some_iff] at h
    obtain ⟨b, _, h⟩ := h
    cases b with
    | false => simp at h; subst h; exact ⟨[], rfl⟩
    | true =>
      simp only [if_true, Option.map_eq_some_iff] at h
      obtain ⟨p, hp, rfl⟩ := h
      obtain ⟨ext, he⟩ := runAll_keys ρ k body Γ p hp
      exact ⟨[], by rw [out_leave]; exact keys_leave he (by simp [keys])⟩
  | .loop c body, Γ, o, h => by
    rw [run] at h
    refine ⟨[], iterate_keys (L := keys Γ) ?_ k Γ o rfl h⟩
    intro Δ p hk hp
    rw [Option.map_eq_some_iff] at hp
    obtain ⟨q, hq, rfl⟩ := hp
    obtain ⟨ext, he⟩ := runAll_keys ρ k body Δ q hq
    rw [out_leave, ← hk]
    exact keys_leave he (by simp [keys])
  | .switch e cases, Γ, o, h => by
    simp only [run, Option.bind_eq_some_iff, Option.map_eq_some_iff] at h
    obtain ⟨v, _, p, hp, rfl⟩ := h
    rw [out_caught]
    exact runCases_keys ρ k cases Γ v p hp
  | .case _ _, Γ, o, h => by simp [run] at h
  | .brk, Γ, o, h => by simp only [run, Option.some.injEq] at h; subst h; exact ⟨[], rfl⟩
  | .blank, Γ, o, h => by simp only [run, Option.some.injEq] at h; subst h; exact ⟨[], rfl⟩
theorem runAll_keys (ρ : Runtime) (k : Nat) : (ss : List Stmt) → ∀ (Γ : Env) (o : Out), runAll ρ k Γ ss = some o →
    ∃ ext, keys (outEnv o) = ext ++ keys Γ
  | [], Γ, o, h => by simp only [runAll, Option.some.injEq] at h; subst h; exact ⟨[], rfl⟩
  | s :: ss, Γ, o, h => by
    simp only [runAll] at h
    cases hs : run ρ k Γ s with
    | none => simp [hs] at h
    | some p =>
      obtain ⟨e1, h1⟩ := run_keys ρ k s Γ p hs
      cases p with
      | next Δ =>
        simp only [hs] at h
        obtain ⟨e2, h2⟩ := runAll_keys ρ k ss Δ o h
        exact ⟨e2 ++ e1, by rw [h2, show keys Δ = e1 ++ keys Γ from h1, List.append_assoc]⟩
      | brk Δ => simp only [hs, Option.some.injEq] at h; subst h; exact ⟨e1, h1⟩
      | ret vs Δ => simp only [hs, Option.some.injEq] at h; subst h; exact ⟨e1, h1⟩
theorem runCases_keys (ρ : Runtime) (k : Nat) : (ss : List Stmt) → ∀ (Γ : Env) (v : Val) (o : Out), runCases ρ k Γ v ss = some o →
    ∃ ext, keys (outEnv o) = ext ++ keys Γ
  | [], Γ, v, o, h => by simp only [runCases, Option.some.injEq] at h; subst h; exact ⟨[], rfl⟩
  | .case c body :: cs, Γ, v, o, h => by
    simp only [runCases, Option.bind_eq_some_iff] at h
    obtain ⟨b, _, h⟩ := h
    cases b with
    | false => simp at h; exact runCases_keys ρ k cs Γ v o h
    | true =>
      simp only [if_true, Option.map_eq_some_iff] at h
      obtain ⟨p, hp, rfl⟩ := h
      obtain ⟨ext, he⟩ := runAll_keys ρ k body Γ p hp
      exact ⟨[], by rw [out_leave]; exact keys_leave he (by simp [keys])⟩
  | .define _ _ :: _, Γ, v, o, h | .assign _ _ :: _, Γ, v, o, h | .addAssign _ _ :: _, Γ, v, o, h | .varDecl _ _ :: _, Γ, v, o, h
  | .ret _ :: _, Γ, v, o, h | .ifThen _ _ :: _, Γ, v, o, h | .loop _ _ :: _, Γ, v, o, h | .switch _ _ :: _, Γ, v, o, h
  | .brk :: _, Γ, v, o, h | .blank :: _, Γ, v, o, h => by simp [runCases] at h
end

/-! ### Decoding -/

/-- The predeclared names are not hidden. -/
def Unshadowed (Γ : Env) : Prop := n "nil" ∉ keys Γ ∧ n "len" ∉ keys Γ

theorem Unshadowed.keys {Γ Δ : Env} (h : Unshadowed Γ) (hk : keys Δ = keys Γ) : Unshadowed Δ := by
  rw [Unshadowed, hk]; exact h

/-- An error is returned. -/
def Failing (vs : List Val) : Prop := ∃ e, vs = [.nil, e] ∧ e ≠ .nil

/-- It goes on, or returns an error. -/
def Tame : Out → Prop
  | .next Δ => Unshadowed Δ
  | .brk _ => False
  | .ret vs _ => Failing vs

theorem tame_define {ρ : Runtime} {k : Nat} {Γ : Env} {xs : List Text} {e : Expr} {o : Out} (hx : n "nil" ∉ xs ∧ n "len" ∉ xs)
    (hΓ : Unshadowed Γ) (h : run ρ k Γ (.define xs e) = some o) : Tame o := by
  simp only [run, Option.bind_eq_some_iff, Option.map_eq_some_iff] at h
  obtain ⟨vs, _, Δ, hd, rfl⟩ := h
  have := define_keys hd
  constructor
  · rw [this, List.mem_append]; rintro (h | h)
    · exact hx.1 h
    · exact hΓ.1 h
  · rw [this, List.mem_append]; rintro (h | h)
    · exact hx.2 h
    · exact hΓ.2 h

theorem tame_assign {ρ : Runtime} {k : Nat} {Γ : Env} {x e : Expr} {o : Out} (hΓ : Unshadowed Γ) (h : run ρ k Γ (.assign x e) = some o) :
    Tame o := by
  simp only [run, Option.bind_eq_some_iff, Option.map_eq_some_iff] at h
  obtain ⟨v, _, Δ, hd, rfl⟩ := h
  exact hΓ.keys (store_keys hd)

theorem tame_blank {ρ : Runtime} {k : Nat} {Γ : Env} {o : Out} (hΓ : Unshadowed Γ) (h : run ρ k Γ .blank = some o) : Tame o := by
  simp only [run, Option.some.injEq] at h; subst h; exact hΓ

theorem same_nil {v : Val} {c : Bool} (h : same v .nil = some c) : c = true ↔ v = .nil := by
  cases v <;> simp [same] at h <;> subst h <;> simp

/-- `if err != nil { return nil, err }`. -/
def errCheck : Stmt := .ifThen (.ne (var "err") (var "nil")) [.ret [var "nil", var "err"]]

theorem tame_check {ρ : Runtime} {k : Nat} {Γ : Env} {o : Out} (hΓ : Unshadowed Γ) (h : run ρ k Γ errCheck = some o) : Tame o := by
  simp only [errCheck, run, Option.bind_eq_some_iff] at h
  obtain ⟨b, ⟨v, ⟨r, hr, hv⟩, hb⟩, h⟩ := h
  cases b with
  | false => simp at h; subst h; exact hΓ
  | true =>
    simp only [if_true, Option.map_eq_some_iff] at h
    obtain ⟨p, hp, rfl⟩ := h
    simp only [eval, Option.bind_eq_some_iff, Option.map_eq_some_iff] at hr
    obtain ⟨x, hx, y, hy, c, hc, rfl⟩ := hr
    have hvb : v = .bool !c := by
      simp only [Res.value, Res.values, Option.some.injEq] at hv; exact hv.symm
    have hcf : c = false := by
      subst hvb
      simp only [Val.isBool, Option.some.injEq] at hb
      cases c <;> simp_all
    have hnil : Is ρ Γ (var "nil") .nil := .nil (lookup_none.2 hΓ.1)
    have hy' : y = .nil := by
      have h1 := hnil.bind
      have h2 : ((eval ρ Γ (var "nil")).bind (·.value ρ)) = some y := Option.bind_eq_some_iff.2 hy
      rw [h1] at h2; injection h2 with h2; exact h2.symm
    subst hy'
    have hxe : Is ρ Γ (var "err") x := hx
    have hrun := runAll_return (k := k) (ss := []) (evalList_two hnil hxe)
    have hpe := hp.symm.trans hrun
    injection hpe with hpe
    subst hpe
    refine ⟨x, rfl, fun hn => ?_⟩
    have := (same_nil hc).2 hn
    rw [hcf] at this; cases this

/-- All statements go on, or return an error. -/
def Safe (ss : List Stmt) : Prop := ∀ (ρ : Runtime) (k : Nat) (Γ : Env) (o : Out), Unshadowed Γ → runAll ρ k Γ ss = some o → Tame o

theorem safe_nil : Safe [] := by
  intro ρ k Γ o hΓ h
  simp only [runAll, Option.some.injEq] at h; subst h; exact hΓ

theorem safe_cons {s : Stmt} {ss : List Stmt} (h1 : ∀ (ρ : Runtime) (k : Nat) (Γ : Env) (o : Out), Unshadowed Γ → run ρ k Γ s = some o → Tame o)
    (h2 : Safe ss) : Safe (s :: ss) := by
  intro ρ k Γ o hΓ h
  simp only [runAll] at h
  cases hs : run ρ k Γ s with
  | none => simp [hs] at h
  | some p =>
    have hp := h1 ρ k Γ p hΓ hs
    cases p with
    | next Δ => simp only [hs] at h; exact h2 ρ k Δ o hp h
    | brk Δ => exact hp.elim
    | ret vs Δ => simp only [hs, Option.some.injEq] at h; subst h; exact hp

theorem safe_case (f : Field) (x : Expr) : Safe (caseBody f x) :=
  safe_cons (fun _ _ _ _ => tame_define (by decide)) <| safe_cons (fun _ _ _ _ => tame_check) <|
    safe_cons (fun _ _ _ _ => tame_assign) <| safe_cons (fun _ _ _ _ => tame_assign) <|
    safe_cons (fun _ _ _ _ => tame_assign) safe_nil

/-- Behind a block. -/
theorem tame_leave {ρ : Runtime} {k : Nat} {Γ : Env} {ss : List Stmt} {o : Out} (hΓ : Unshadowed Γ) (hs : Safe ss)
    (h : runAll ρ k Γ ss = some o) : Tame (o.leave Γ.length) := by
  have ht := hs ρ k Γ o hΓ h
  obtain ⟨ext, hk⟩ := runAll_keys ρ k ss Γ o h
  cases o with
  | next Δ => exact hΓ.keys (keys_leave hk (by simp [keys]))
  | brk Δ => exact ht.elim
  | ret vs Δ => exact ht

theorem tame_cases {ρ : Runtime} {k : Nat} {Γ : Env} {v : Val} (hΓ : Unshadowed Γ) : ∀ {fs : List Field} {cs : List Stmt} {o : Out},
    allOf decFieldTree fs = some cs → runCases ρ k Γ v (cs ++ endCase) = some o → Tame o.caught := by
  intro fs
  induction fs with
  | nil =>
    intro cs o h hr
    simp only [allOf, Option.some.injEq] at h; subst h
    simp only [List.nil_append, endCase, runCases, Option.bind_eq_some_iff] at hr
    obtain ⟨b, _, hr⟩ := hr
    cases b with
    | false => simp at hr; subst hr; exact hΓ
    | true => simp [runAll, run, Out.leave, leave_self] at hr; subst hr; exact hΓ
  | cons f fs ih =>
    intro cs o h hr
    simp only [allOf, Option.bind_eq_bind, Option.bind_eq_some_iff, Option.pure_def, Option.some.injEq] at h
    obtain ⟨s, h1, ss', h2, rfl⟩ := h
    obtain ⟨x, hx, rfl⟩ := decField_eq h1
    rw [List.cons_append, runCases, Option.bind_eq_some_iff] at hr
    obtain ⟨b, _, hr⟩ := hr
    cases b with
    | false => simp at hr; exact ih h2 hr
    | true =>
      simp only [if_true, Option.map_eq_some_iff] at hr
      obtain ⟨p, hp, rfl⟩ := hr
      have := tame_leave hΓ (safe_case f x) hp
      revert this
      cases p with
      | next Δ => exact id
      | brk Δ => exact False.elim
      | ret vs Δ => exact id

theorem safe_round {fs : List Field} {cs : List Stmt} (hc : allOf decFieldTree fs = some cs) : Safe (roundBody cs) := by
  refine safe_cons (fun _ _ _ _ => tame_define (by decide)) <| safe_cons (fun _ _ _ _ => tame_check) <|
    safe_cons (fun _ _ _ _ => tame_assign) <| safe_cons (fun _ _ _ _ => tame_blank) <| safe_cons ?_ safe_nil
  intro ρ k Γ o hΓ h
  simp only [run, Option.bind_eq_some_iff, Option.map_eq_some_iff] at h
  obtain ⟨v, _, p, hp, rfl⟩ := h
  exact tame_cases hΓ hc hp

/-- The loop ends when nothing is left, or with an error. -/
theorem loop_any {ρ : Runtime} {k : Nat} {fs : List Field} {cs : List Stmt} (hc : allOf decFieldTree fs = some cs) :
    ∀ (j : Nat) (Γ : Env) (o : Out), Unshadowed Γ → loopFrom ρ k cs j Γ = some o →
      (∃ Δ, o = .next Δ ∧ Unshadowed Δ ∧ ((eval ρ Δ loopCond).bind (·.value ρ)).bind Val.isBool = some false) ∨
      ∃ vs Δ, o = .ret vs Δ ∧ Failing vs := by
  intro j
  induction j with
  | zero => intro Γ o _ h; simp [loopFrom, iterate] at h
  | succ j ih =>
    intro Γ o hΓ h
    simp only [loopFrom, iterate] at h
    cases hcd : ((eval ρ Γ loopCond).bind (·.value ρ)).bind Val.isBool with
    | none => simp [hcd] at h
    | some c =>
      cases c with
      | false =>
        simp only [hcd, Option.some.injEq] at h; subst h
        exact .inl ⟨Γ, rfl, hΓ, hcd⟩
      | true =>
        simp only [hcd] at h
        cases hb : runAll ρ k Γ (roundBody cs) with
        | none => simp [hb] at h
        | some p =>
          have ht := tame_leave hΓ (safe_round hc) hb
          cases p with
          | next Δ => simp only [hb, Option.map_some, Out.leave] at h; exact ih _ o ht h
          | brk Δ => exact ht.elim
          | ret vs Δ => simp only [hb, Option.map_some, Out.leave, Option.some.injEq] at h; exact .inr ⟨vs, _, h.symm, ht⟩

theorem cond_done {ρ : Runtime} {Γ : Env} (hΓ : Unshadowed Γ) (h : ((eval ρ Γ loopCond).bind (·.value ρ)).bind Val.isBool = some false) :
    ∃ v, Is ρ Γ (var "r") v ∧ (v = .bytes [] ∨ v = .nil) := by
  simp only [Option.bind_eq_some_iff] at h
  obtain ⟨v, ⟨r, hr, hv⟩, hb⟩ := h
  simp only [loopCond, eval, Option.bind_eq_some_iff, Option.map_eq_some_iff] at hr
  obtain ⟨x, ⟨q, hq, hqv⟩, y, ⟨q', hq', hqv'⟩, c, hc, rfl⟩ := hr
  obtain ⟨fn, hfn, as, has, us, hus, rfl⟩ := hq
  have hlen : eval ρ Γ (var "len") = some .len := by simp only [var, eval, name, lookup_none.2 hΓ.2]; rfl
  have := hfn.symm.trans hlen
  injection this with this; subst this
  simp only [evalArgs, Option.bind_eq_some_iff, Option.map_eq_some_iff, Option.some.injEq] at has
  obtain ⟨a, ⟨ra, hra, harg⟩, l, rfl, rfl⟩ := has
  simp only [Res.apply, Option.bind_eq_some_iff] at hus
  obtain ⟨ws, hws, hlw⟩ := hus
  cases a with
  | fn f => simp [argVals] at hws
  | val w =>
    simp only [argVals, Option.map_some, Option.some.injEq] at hws
    subst hws
    have hw : Is ρ Γ (var "r") w := by
      refine ⟨ra, hra, ?_⟩
      cases ra <;> simp [Res.arg] at harg <;> first | exact harg | (exact harg.elim)
    refine ⟨w, hw, ?_⟩
    have hy : y = .num 0 := by
      injection hq' with hq'; subst hq'
      simp only [Res.value, Res.values, Option.some.injEq] at hqv'; exact hqv'.symm
    subst hy
    simp only [Res.value, Res.values, Option.some.injEq] at hv
    subst hv
    simp only [Val.isBool, Option.some.injEq] at hb
    subst hb
    cases w with
    | bytes bs =>
      simp only [lengthOf, Option.some.injEq] at hlw; subst hlw
      simp only [Res.value, Res.values, Option.some.injEq] at hqv; subst hqv
      simp only [greater, Option.some.injEq, decide_eq_false_iff_not] at hc
      left
      cases bs with
      | nil => rfl
      | cons b bs => simp at hc
    | nil => exact .inr rfl
    | _ => simp [lengthOf] at hlw

theorem checks_any {ρ : Runtime} {k : Nat} {Γ : Env} {kind : FieldKind} (hΓ : Unshadowed Γ) : ∀ (fs : List Field) (o : Out),
    runAll ρ k Γ (fs.map (foundCheckTree kind)) = some o → o = .next Γ ∨ ∃ vs Δ, o = .ret vs Δ ∧ Failing vs := by
  intro fs
  induction fs with
  | nil => intro o h; simp only [List.map_nil, runAll, Option.some.injEq] at h; exact .inl h.symm
  | cons f fs ih =>
    intro o h
    rw [List.map_cons] at h
    simp only [runAll] at h
    cases hs : run ρ k Γ (foundCheckTree kind f) with
    | none => simp [hs] at h
    | some p =>
      have hp : p = .next Γ ∨ ∃ vs Δ, p = .ret vs Δ ∧ Failing vs := by
        have hs' := hs
        simp only [foundCheckTree, run, Option.bind_eq_some_iff] at hs
        obtain ⟨b, ⟨v, ⟨r, hr, hv⟩, hb⟩, h⟩ := hs
        cases b with
        | false => simp at h; exact .inl h.symm
        | true =>
          right
          refine ⟨[.nil, missing kind f], Γ, ?_, _, rfl, by simp [missing, missingField]⟩
          simp only [eval, Option.map_eq_some_iff, Option.bind_eq_some_iff] at hr
          obtain ⟨c, ⟨u, hu, huc⟩, rfl⟩ := hr
          simp only [Res.value, Res.values, Option.some.injEq] at hv; subst hv
          simp only [Val.isBool, Option.some.injEq] at hb
          have hcf : c = false := by cases c <;> simp_all
          subst hcf
          obtain ⟨q, hq, hqv⟩ := hu
          cases hl : lookup Γ (foundName f) with
          | some w =>
            simp only [name, hl, Option.some.injEq] at hq; subst hq
            simp only [Res.value, Res.values, Option.some.injEq] at hqv; subst hqv
            have : w = .bool false := by cases w <;> simp [Val.isBool] at huc; rw [huc]
            subst this
            have := check_missing (ρ := ρ) (k := k) (kind := kind) hl (lookup_none.2 hΓ.1)
            rw [hs'] at this; injection this
          | none =>
            exfalso
            simp only [name, hl] at hq
            rw [if_neg (found_ne f (x := "nil") (by decide)), if_neg (found_ne f (x := "true") (by decide)),
              if_neg (found_ne f (x := "false") (by decide)), if_neg (found_ne f (x := "len") (by decide)),
              if_neg (found_ne f (x := "buf") (by decide))] at hq
            cases hq
      rcases hp with rfl | ⟨vs, Δ, rfl, hf⟩
      · simp only [hs] at h; exact ih o h
      · simp only [hs, Option.some.injEq] at h; exact .inr ⟨vs, Δ, h.symm, hf⟩

theorem runAll_split {ρ : Runtime} {k : Nat} {ts : List Stmt} : ∀ {ss : List Stmt} {Γ : Env} {o : Out}, runAll ρ k Γ (ss ++ ts) = some o →
    ∃ p, runAll ρ k Γ ss = some p ∧ ((∃ Δ, p = .next Δ ∧ runAll ρ k Δ ts = some o) ∨ ((∀ Δ, p ≠ .next Δ) ∧ p = o)) := by
  intro ss
  induction ss with
  | nil => intro Γ o h; exact ⟨_, runAll_nil _ _ _, .inl ⟨Γ, rfl, h⟩⟩
  | cons s ss ih =>
    intro Γ o h
    rw [List.cons_append] at h
    simp only [runAll] at h ⊢
    cases hs : run ρ k Γ s with
    | none => simp [hs] at h
    | some p =>
      cases p with
      | next Δ => simp only [hs] at h; simpa only using ih h
      | brk Δ => simp only [hs, Option.some.injEq] at h; exact ⟨_, rfl, .inr ⟨(nofun), h⟩⟩
      | ret vs Δ => simp only [hs, Option.some.injEq] at h; exact ⟨_, rfl, .inr ⟨(nofun), h⟩⟩

theorem safe_founds : ∀ fs : List Field, Safe (fs.map foundVarTree)
  | [] => safe_nil
  | f :: fs => safe_cons (fun _ _ _ _ => tame_define (by
      simp only [List.mem_singleton]
      exact ⟨(found_ne f (by decide)).symm, (found_ne f (by decide)).symm⟩)) (safe_founds fs)

theorem body_any {ρ : Runtime} {k : Nat} {fs : Fields} {body : List Stmt} (hb : decBodyTree fs = some body) {Γ : Env} (hΓ : Unshadowed Γ)
    {o : Out} (h : runAll ρ k Γ body = some o) : ∃ vs Δ, o = .ret vs Δ ∧ (Failing vs ∨ vs = [.bytes [], .nil] ∨ vs = [.nil, .nil]) := by
  obtain ⟨cs, hc, rfl⟩ := dec_parts hb
  obtain ⟨p, hp, hq⟩ := runAll_split h
  have ht := safe_founds fs.fields ρ k Γ p hΓ hp
  rcases hq with ⟨Δ, rfl, hq⟩ | ⟨hne, rfl⟩
  · rw [runAll_next (run_blank _ _ _)] at hq
    simp only [runAll] at hq
    rw [run_loop] at hq
    cases hl : loopFrom ρ k cs k Δ with
    | none => simp [hl] at hq
    | some q =>
      rcases loop_any hc k Δ q ht hl with ⟨E, rfl, hE, hcd⟩ | ⟨vs, E, rfl, hf⟩
      · simp only [hl, run_blank] at hq
        obtain ⟨p', hp', hq'⟩ := runAll_split hq
        rcases checks_any hE fs.fields p' hp' with rfl | ⟨vs, F, rfl, hf⟩
        · rcases hq' with ⟨F, hF, hq'⟩ | ⟨hne, _⟩
          · injection hF with hF; subst hF
            rw [runAll_next (run_blank _ _ _)] at hq'
            obtain ⟨v, hv, hve⟩ := cond_done hE hcd
            have := runAll_return (k := k) (ss := []) (evalList_two hv (.nil (lookup_none.2 hE.1)))
            have := hq'.symm.trans this
            injection this with this; subst this
            refine ⟨_, _, rfl, .inr ?_⟩
            rcases hve with rfl | rfl
            · exact .inl rfl
            · exact .inr rfl
          · exact absurd rfl (hne _)
        · rcases hq' with ⟨F', hF, _⟩ | ⟨_, rfl⟩
          · cases hF
          · exact ⟨vs, F, rfl, .inl hf⟩
      · simp only [hl, Option.some.injEq] at hq; exact ⟨vs, E, hq.symm, .inl hf⟩
  · cases p with
    | next Δ => exact absurd rfl (hne Δ)
    | brk Δ => exact ht.elim
    | ret vs Δ => exact ⟨vs, Δ, rfl, .inl ht⟩

/-- What a decoding method returns: an error, or nothing is left. -/
theorem dec_any {ρ : Runtime} {k : Nat} {fs : Fields} {body : List Stmt} (hb : decBodyTree fs = some body) {recv arg recv' : Val}
    {vs : List Val} (h : invoke ρ k [(n "r", byteSlice)] body recv [arg] = some (vs, recv')) :
    Failing vs ∨ vs = [.bytes [], .nil] ∨ vs = [.nil, .nil] := by
  have hd : define [(n "v", recv)] [n "r"] [arg] = some [(n "r", arg), (n "v", recv)] := rfl
  have h' : (define [(n "v", recv)] [n "r"] [arg]).bind (fun Γ => match runAll ρ k Γ body with
    | some (.ret vs Δ) => (lookup (leave 1 Δ) (n "v")).map (vs, ·)
    | _ => none) = some (vs, recv') := h
  rw [hd, Option.bind_some] at h'
  cases hr : runAll ρ k [(n "r", arg), (n "v", recv)] body with
  | none => simp [hr] at h'
  | some o =>
    obtain ⟨us, Δ, rfl, hu⟩ := body_any hb (Γ := [(n "r", arg), (n "v", recv)]) ⟨show n "nil" ∉ [n "r", n "v"] by decide, show n "len" ∉ [n "r", n "v"] by decide⟩ hr
    simp only [hr, Option.map_eq_some_iff, Prod.mk.injEq] at h'
    obtain ⟨_, _, rfl, _⟩ := h'
    exact hu

/-! ### Encoding -/

theorem assigns_only {ρ : Runtime} {k : Nat} : ∀ {ss : List Stmt} {Γ : Env} {o : Out}, (∀ s ∈ ss, ∃ x e, s = .assign x e) →
    runAll ρ k Γ ss = some o → ∃ Δ, o = .next Δ ∧ keys Δ = keys Γ := by
  intro ss
  induction ss with
  | nil => intro Γ o _ h; simp only [runAll, Option.some.injEq] at h; exact ⟨Γ, h.symm, rfl⟩
  | cons s ss ih =>
    intro Γ o ha h
    obtain ⟨x, e, rfl⟩ := ha _ (List.mem_cons_self ..)
    simp only [runAll] at h
    cases hs : run ρ k Γ (.assign x e) with
    | none => simp [hs] at h
    | some p =>
      have hs' := hs
      simp only [run, Option.bind_eq_some_iff, Option.map_eq_some_iff] at hs'
      obtain ⟨v, _, Δ, hd, rfl⟩ := hs'
      simp only [hs] at h
      obtain ⟨E, hE, hk⟩ := ih (fun s hm => ha s (List.mem_cons_of_mem _ hm)) h
      exact ⟨E, hE, by rw [hk, store_keys hd]⟩

theorem encField_assign {f : Field} {s : Stmt} (h : encFieldTree f = some s) : ∃ x e, s = .assign x e := by
  obtain ⟨c, x, ty, i⟩ := f
  cases ty <;> simp only [encFieldTree, Option.bind_eq_bind, Option.bind_eq_some_iff, Option.pure_def, Option.some.injEq] at h
  case option =>
    obtain ⟨g', _, y, hy, rfl⟩ := h
    exact ⟨_, _, rfl⟩
  all_goals
    obtain ⟨y, hy, rfl⟩ := h
    exact ⟨_, _, rfl⟩

theorem encFields_assign {fs : Fields} {ss : List Stmt} (h : encFieldsTree fs = some ss) : ∀ s ∈ ss, ∃ x e, s = .assign x e := by
  rw [encFieldsTree] at h
  split at h
  · injection h with h; subst h; intro s hs; cases hs
  · simp only [Option.bind_eq_bind, Option.bind_eq_some_iff, Option.pure_def, Option.some.injEq] at h
    obtain ⟨body, hb, rfl⟩ := h
    intro s hs
    rcases List.mem_append.1 hs with hs | hs
    · have : ∀ (fs : List Field) (body : List Stmt), allOf encFieldTree fs = some body → ∀ s ∈ body, ∃ x e, s = .assign x e := by
        intro fs
        induction fs with
        | nil => intro body h s hs; simp only [allOf, Option.some.injEq] at h; subst h; cases hs
        | cons f fs ih =>
          intro body h s hs
          simp only [allOf, Option.bind_eq_bind, Option.bind_eq_some_iff, Option.pure_def, Option.some.injEq] at h
          obtain ⟨s', h1, ss', h2, rfl⟩ := h
          rcases List.mem_cons.1 hs with rfl | hs
          · exact encField_assign h1
          · exact ih _ h2 s hs
      exact this _ _ hb s hs
    · rw [List.mem_singleton] at hs; subst hs; exact ⟨_, _, rfl⟩

/-- What the encoding method of a variant returns. -/
theorem enc_any {ρ : Runtime} {k : Nat} {fs : Fields} {ss : List Stmt} (h : encFieldsTree fs = some ss) {recv arg recv' : Val}
    {vs : List Val} (hi : invoke ρ k [(n "w", byteSlice)] (ss ++ [.ret [var "nil"]]) recv [arg] = some (vs, recv')) : vs = [.nil] := by
  have hd : define [(n "v", recv)] [n "w"] [arg] = some [(n "w", arg), (n "v", recv)] := rfl
  have h' : (define [(n "v", recv)] [n "w"] [arg]).bind (fun Γ => match runAll ρ k Γ (ss ++ [.ret [var "nil"]]) with
    | some (.ret vs Δ) => (lookup (leave 1 Δ) (n "v")).map (vs, ·)
    | _ => none) = some (vs, recv') := hi
  rw [hd, Option.bind_some] at h'
  cases hr : runAll ρ k [(n "w", arg), (n "v", recv)] (ss ++ [.ret [var "nil"]]) with
  | none => simp [hr] at h'
  | some o =>
    obtain ⟨p, hp, hq⟩ := runAll_split hr
    obtain ⟨Δ, rfl, hk⟩ := assigns_only (encFields_assign h) hp
    rcases hq with ⟨E, hE, hq⟩ | ⟨hne, _⟩
    · injection hE with hE; subst hE
      have hnil : n "nil" ∉ keys Δ := by
        rw [hk]; exact (show n "nil" ∉ [n "w", n "v"] by decide)
      have := runAll_return (k := k) (ss := []) (evalList_one (.nil (ρ := ρ) (lookup_none.2 hnil)))
      have := hq.symm.trans this
      injection this with this; subst this
      simp only [hr, Option.map_eq_some_iff, Prod.mk.injEq] at h'
      obtain ⟨_, _, rfl, _⟩ := h'
      rfl
    · exact absurd rfl (hne Δ)

/-! ### Loops with more rounds -/

theorem iterate_mono {cond : Env → Option Bool} {body body' : Env → Option Out} (hb : ∀ Γ o, body Γ = some o → body' Γ = some o) :
    ∀ (k : Nat) (Γ : Env) (o : Out), iterate cond body k Γ = some o → ∀ k', k ≤ k' → iterate cond body' k' Γ = some o := by
  intro k
  induction k with
  | zero => intro Γ o h; simp [iterate] at h
  | succ k ih =>
    intro Γ o h k' hk
    obtain ⟨k', rfl⟩ : ∃ j, k' = j + 1 := ⟨k' - 1, by omega⟩
    simp only [iterate] at h ⊢
    cases hc : cond Γ with
    | none => simp [hc] at h
    | some c =>
      cases c with
      | false => simpa only [hc] using h
      | true =>
        simp only [hc] at h ⊢
        cases hbo : body Γ with
        | none => simp [hbo] at h
        | some p =>
          rw [hb Γ p hbo]
          cases p with
          | next Δ => simp only [hbo] at h; exact ih Δ o h k' (by omega)
          | brk Δ => simpa only [hbo] using h
          | ret vs Δ => simpa only [hbo] using h

mutual
theorem run_mono (ρ : Runtime) {k k' : Nat} (hk : k ≤ k') : (s : Stmt) → ∀ (Γ : Env) (o : Out), run ρ k Γ s = some o →
    run ρ k' Γ s = some o
  | .define xs e, Γ, o, h => by simpa only [run] using h
  | .assign x e, Γ, o, h => by simpa only [run] using h
  | .addAssign x e, Γ, o, h => by simpa only [run] using h
  | .varDecl x t, Γ, o, h => by simpa only [run] using h
  | .ret es, Γ, o, h => by simpa only [run] using h
  | .ifThen c body, Γ, o, h => by
    simp only [run, Option.bind_eq_some_iff] at h ⊢
    obtain ⟨b, hb, h⟩ := h
    refine ⟨b, hb, ?_⟩
    cases b with
    | false => simpa using h
    | true =>
      simp only [if_true, Option.map_eq_some_iff] at h ⊢
      obtain ⟨p, hp, rfl⟩ := h
      exact ⟨p, runAll_mono ρ hk body Γ p hp, rfl⟩
  | .loop c body, Γ, o, h => by
    rw [run] at h ⊢
    refine iterate_mono ?_ k Γ o h k' hk
    intro Δ p hp
    rw [Option.map_eq_some_iff] at hp ⊢
    obtain ⟨q, hq, rfl⟩ := hp
    exact ⟨q, runAll_mono ρ hk body Δ q hq, rfl⟩
  | .switch e cases, Γ, o, h => by
    simp only [run, Option.bind_eq_some_iff, Option.map_eq_some_iff] at h ⊢
    obtain ⟨v, hv, p, hp, rfl⟩ := h
    exact ⟨v, hv, p, runCases_mono ρ hk cases Γ v p hp, rfl⟩
  | .case _ _, Γ, o, h => by simp [run] at h
  | .brk, Γ, o, h => by simpa only [run] using h
  | .blank, Γ, o, h => by simpa only [run] using h
theorem runAll_mono (ρ : Runtime) {k k' : Nat} (hk : k ≤ k') : (ss : List Stmt) → ∀ (Γ : Env) (o : Out), runAll ρ k Γ ss = some o →
    runAll ρ k' Γ ss = some o
  | [], Γ, o, h => by simpa only [runAll] using h
  | s :: ss, Γ, o, h => by
    simp only [runAll] at h ⊢
    cases hs : run ρ k Γ s with
    | none => simp [hs] at h
    | some p =>
      rw [run_mono ρ hk s Γ p hs]
      cases p with
      | next Δ => simp only [hs] at h; exact runAll_mono ρ hk ss Δ o h
      | brk Δ => simpa only [hs] using h
      | ret vs Δ => simpa only [hs] using h
theorem runCases_mono (ρ : Runtime) {k k' : Nat} (hk : k ≤ k') : (ss : List Stmt) → ∀ (Γ : Env) (v : Val) (o : Out),
    runCases ρ k Γ v ss = some o → runCases ρ k' Γ v ss = some o
  | [], Γ, v, o, h => by simpa only [runCases] using h
  | .case c body :: cs, Γ, v, o, h => by
    simp only [runCases, Option.bind_eq_some_iff] at h ⊢
    obtain ⟨b, hb, h⟩ := h
    refine ⟨b, hb, ?_⟩
    cases b with
    | false => simp at h ⊢; exact runCases_mono ρ hk cs Γ v o h
    | true =>
      simp only [if_true, Option.map_eq_some_iff] at h ⊢
      obtain ⟨p, hp, rfl⟩ := h
      exact ⟨p, runAll_mono ρ hk body Γ p hp, rfl⟩
  | .define _ _ :: _, Γ, v, o, h | .assign _ _ :: _, Γ, v, o, h | .addAssign _ _ :: _, Γ, v, o, h | .varDecl _ _ :: _, Γ, v, o, h
  | .ret _ :: _, Γ, v, o, h | .ifThen _ _ :: _, Γ, v, o, h | .loop _ _ :: _, Γ, v, o, h | .switch _ _ :: _, Γ, v, o, h
  | .brk :: _, Γ, v, o, h | .blank :: _, Γ, v, o, h => by simp [runCases] at h
end

theorem invoke_mono {ρ : Runtime} {k k' : Nat} (hk : k ≤ k') {ps : List (Text × GTy)} {body : List Stmt} {recv : Val} {args : List Val}
    {out : List Val × Val} (h : invoke ρ k ps body recv args = some out) : invoke ρ k' ps body recv args = some out := by
  simp only [invoke, Option.bind_eq_some_iff] at h ⊢
  obtain ⟨Γ, hΓ, h⟩ := h
  refine ⟨Γ, hΓ, ?_⟩
  cases hr : runAll ρ k Γ body with
  | none => simp [hr] at h
  | some o =>
    rw [runAll_mono ρ hk body Γ o hr]
    rw [hr] at h; exact h

/-! ### Ids that are no fields -/

theorem founds_env {ρ : Runtime} {k : Nat} : ∀ (fs : List Field) (Γ : Env), lookup Γ (n "false") = none →
    runAll ρ k Γ (fs.map foundVarTree) = some (.next ((fs.map fun f => (foundName f, Val.bool false)).reverse ++ Γ)) := by
  intro fs
  induction fs with
  | nil => intro Γ _; exact runAll_nil _ _ _
  | cons f fs ih =>
    intro Γ h
    have h1 : run ρ k Γ (foundVarTree f) = some (.next ((foundName f, .bool false) :: Γ)) := run_define (Is.valueOf (.false h)) rfl
    rw [List.map_cons, runAll_next h1, ih _ (by rw [lookup_cons, if_neg (found_ne f (by decide)).symm, h])]
    simp

theorem update_skip {x : Text} {u : Val} {Γ : Env} : ∀ {ext : Env}, x ∉ keys ext → update (ext ++ Γ) x u = ext ++ update Γ x u
  | [], _ => rfl
  | (y, v) :: ext, h => by
    have h' : x ≠ y ∧ x ∉ keys ext := by simpa [keys] using h
    rw [List.cons_append, update_cons, if_neg h'.1, update_skip h'.2, List.cons_append]

/-- A round with an id that is no field. -/
theorem round_skip {ρ : Runtime} {k : Nat} {Γ : Env} {fs : List Field} {t : Text} {g : Text → Val} {r rest : List UInt8}
    {found : Field → Bool} {i : Nat} {m : Int} (hd : lib ρ (n "DecodeID") [] [] [.bytes r] = some [.bytes rest, .num i, .nil])
    (hm : ρ.const (n "EndMarker") = some (.num m)) (h : DecVars Γ fs t g r found) {cs : List Stmt}
    (hc : allOf decFieldTree fs = some cs) (hne : ∀ f ∈ fs, f.id.toNat ≠ i) :
    (runAll ρ k Γ (roundBody cs)).map (Out.leave Γ.length) = some (.next (update Γ (n "r") (.bytes rest))) := by
  have hbuf := h.none (x := "buf") (by decide) (by decide) (by decide)
  rw [roundBody, round_id hd h, runAll_last, run_switch (e := var "id") (v := .num i) (.var (by
    rw [lookup_cons, if_neg (by decide), lookup_cons, if_pos rfl])), cases_miss _ hc hne]
  have hb : lookup ((n "r2", .bytes rest) :: (n "id", .num i) :: (n "err", .nil) :: update Γ (n "r") (.bytes rest)) (n "buf") = none := by
    rw [lookup_cons, if_neg (by decide), lookup_cons, if_neg (by decide), lookup_cons, if_neg (by decide),
      lookup_update_ne (by decide), hbuf]
  rw [endCase, runCases, (Is.const hb hm).bind]
  have hs : same (.num (i : Int)) (.num m) = some ((i : Int) == m) := rfl
  rw [Option.bind_some, hs, Option.bind_some]
  cases ((i : Int) == m) with
  | true =>
    simp only [if_true, runAll, run, Option.map_some, Out.leave, leave_self, Out.caught,
      leave_three _ _ _ _ _ (update_length Γ _ _)]
  | false =>
    simp only [runCases, Option.map_some, Out.leave, Out.caught, leave_three _ _ _ _ _ (update_length Γ _ _), Bool.false_eq_true, if_false]

/-- The variables at the beginning of the loop. -/
def startEnv (fs : List Field) (recv : Val) (r : List UInt8) : Env :=
  (fs.map fun f => (foundName f, Val.bool false)).reverse ++ [(n "r", .bytes r), (n "v", recv)]

theorem start_vars (fs : List Field) (t : Text) (g : Text → Val) (r : List UInt8) :
    DecVars (startEnv fs (.obj t g) r) fs t g r (fun _ => false) := by
  obtain ⟨Γ, K, h1, _, _, h4⟩ := dec_start (ρ := ⟨fun _ => none, fun _ _ _ => none, fun _ _ _ => none, fun _ => .nil⟩) (k := 0) fs t g r
  rw [founds_env fs _ (by rw [lookup_cons, if_neg (by decide), lookup_cons, if_neg (by decide)]; rfl)] at h1
  injection h1 with h1; injection h1 with h1; rw [startEnv, h1]; exact h4

theorem start_update (fs : List Field) (recv : Val) (r r' : List UInt8) :
    update (startEnv fs recv r) (n "r") (.bytes r') = startEnv fs recv r' := by
  rw [startEnv, update_skip]
  · rw [update_cons, if_pos rfl]; rfl
  · rw [keys, List.map_reverse, List.mem_reverse, List.map_map, List.mem_map]
    rintro ⟨f, _, hf⟩
    exact found_ne f (by decide) hf

theorem invoke_start {ρ : Runtime} {k : Nat} {fs : Fields} {body cs : List Stmt} {recv : Val} {r : List UInt8}
    (hb : body = fs.fields.map foundVarTree ++ .blank :: decLoopTree cs :: .blank ::
      (fs.fields.map (foundCheckTree fs.kind) ++ [.blank, .ret [var "r", var "nil"]])) :
    runAll ρ k [(n "r", .bytes r), (n "v", recv)] body =
      match loopFrom ρ k cs k (startEnv fs.fields recv r) with
      | some (.next Δ) => runAll ρ k Δ (.blank :: (fs.fields.map (foundCheckTree fs.kind) ++ [.blank, .ret [var "r", var "nil"]]))
      | o => o := by
  rw [hb, runAll_append (founds_env fs.fields _ (by rw [lookup_cons, if_neg (by decide), lookup_cons, if_neg (by decide)]; rfl)),
    runAll_next (run_blank _ _ _)]
  simp only [runAll]
  rw [run_loop]
  rfl

theorem invoke_dec_eq {ρ : Runtime} {k : Nat} {body : List Stmt} {recv : Val} {r : List UInt8} {vs : List Val} {recv' : Val} :
    invoke ρ k [(n "r", byteSlice)] body recv [.bytes r] = some (vs, recv') ↔
      ∃ Δ, runAll ρ k [(n "r", .bytes r), (n "v", recv)] body = some (.ret vs Δ) ∧ lookup (leave 1 Δ) (n "v") = some recv' := by
  have hd : define [(n "v", recv)] [n "r"] [.bytes r] = some [(n "r", .bytes r), (n "v", recv)] := rfl
  have h : invoke ρ k [(n "r", byteSlice)] body recv [.bytes r] =
    (define [(n "v", recv)] [n "r"] [.bytes r]).bind (fun Γ => match runAll ρ k Γ body with
    | some (.ret vs Δ) => (lookup (leave 1 Δ) (n "v")).map (vs, ·)
    | _ => none) := rfl
  rw [h, hd, Option.bind_some]
  cases hr : runAll ρ k [(n "r", .bytes r), (n "v", recv)] body with
  | none => simp
  | some o =>
    cases o with
    | next Δ => simp
    | brk Δ => simp
    | ret us Δ =>
      simp only [Option.map_eq_some_iff, Prod.mk.injEq, Option.some.injEq, Out.ret.injEq]
      constructor
      · rintro ⟨w, h1, rfl, rfl⟩; exact ⟨Δ, ⟨rfl, rfl⟩, h1⟩
      · rintro ⟨_, ⟨rfl, rfl⟩, h1⟩; exact ⟨recv', h1, rfl, rfl⟩

/-- Decoding goes on behind an id that is no field, with what should be its value. -/
theorem dec_skip {ρ : Runtime} {fs : Fields} {body : List Stmt} (hb : decBodyTree fs = some body) {t : Text} {g : Text → Val}
    {r rest : List UInt8} {i : Nat} {m : Int} (hr : r ≠ [])
    (hd : lib ρ (n "DecodeID") [] [] [.bytes r] = some [.bytes rest, .num i, .nil])
    (hm : ρ.const (n "EndMarker") = some (.num m)) (hne : ∀ f ∈ fs.fields, f.id.toNat ≠ i) (vs : List Val) (recv' : Val) :
    Returns ρ [(n "r", byteSlice)] body (.obj t g) [.bytes r] vs recv' ↔
      Returns ρ [(n "r", byteSlice)] body (.obj t g) [.bytes rest] vs recv' := by
  obtain ⟨cs, hc, hbody⟩ := dec_parts hb
  have hstep : ∀ k j, loopFrom ρ k cs (j + 1) (startEnv fs.fields (.obj t g) r) =
      loopFrom ρ k cs j (startEnv fs.fields (.obj t g) rest) := by
    intro k j
    have h := start_vars fs.fields t g r
    rw [loop_round h hr (round_skip hd hm h hc hne), start_update]
  have hmono : ∀ k j j' Γ o, j ≤ j' → loopFrom ρ k cs j Γ = some o → loopFrom ρ k cs j' Γ = some o :=
    fun k j j' Γ o hj h => iterate_mono (fun _ _ h => h) j Γ o h j' hj
  have hk' : ∀ k j Γ o, loopFrom ρ k cs j Γ = some o → loopFrom ρ (k + 1) cs j Γ = some o := by
    intro k j Γ o h
    refine iterate_mono (fun Δ p hp => ?_) j Γ o h j (Nat.le_refl _)
    rw [Option.map_eq_some_iff] at hp ⊢
    obtain ⟨q, hq, rfl⟩ := hp
    exact ⟨q, runAll_mono ρ (by omega) _ Δ q hq, rfl⟩
  constructor
  · rintro ⟨k, h⟩
    refine ⟨k, ?_⟩
    rw [invoke_dec_eq] at h ⊢
    obtain ⟨Δ, h1, h2⟩ := h
    refine ⟨Δ, ?_, h2⟩
    rw [invoke_start hbody] at h1 ⊢
    cases k with
    | zero => simp [loopFrom, iterate] at h1
    | succ k =>
      rw [hstep] at h1
      cases hl : loopFrom ρ (k + 1) cs k (startEnv fs.fields (.obj t g) rest) with
      | none => simp [hl] at h1
      | some o => rw [hmono _ _ (k + 1) _ _ (by omega) hl]; rw [hl] at h1; exact h1
  · rintro ⟨k, h⟩
    refine ⟨k + 1, ?_⟩
    rw [invoke_dec_eq] at h ⊢
    obtain ⟨Δ, h1, h2⟩ := h
    refine ⟨Δ, ?_, h2⟩
    rw [invoke_start hbody] at h1 ⊢
    rw [hstep]
    cases hl : loopFrom ρ k cs k (startEnv fs.fields (.obj t g) rest) with
    | none => simp [hl] at h1
    | some o =>
      rw [hk' _ _ _ _ hl]
      rw [hl] at h1
      cases o with
      | next E => exact runAll_mono ρ (by omega) _ _ _ h1
      | brk E => exact h1
      | ret us E => exact h1

end Mabo.Go
