import Verif.Rust.SizeSem
/-!
The converse of `Rust/SizeSem.lean`: if the code of `sizeOps` compiles, then the type satisfies `refOk`.
-/
namespace Mabo.Rust
open Mabo.Schema (Prim Ty)

/-- Every operand is a number or a reference to one. -/
def Acc (c : Ctx) (es : List Expr) : Prop :=
  ∀ e ∈ es, ∃ exp u m, (den e).plain c exp = some (u, m) ∧ (u = .usize ∨ u = .ref .usize)

theorem operand_some {e : Elab} {c : Ctx} {m : M} (h : operand e c = some m) :
    ∃ u, e c none = some (u, m) ∧ (u = .usize ∨ u = .ref .usize) := by
  unfold operand at h
  split at h
  · next he =>
    injection h with h
    subst h
    exact ⟨_, he, .inl rfl⟩
  · next he =>
    injection h with h
    subst h
    exact ⟨_, he, .inr rfl⟩
  · simp at h

theorem Acc.ofOperands {c : Ctx} : ∀ {es : List Expr} {ms : List M}, operands c (denList es) = some ms → Acc c es
  | [], _, _ => fun _ he => nomatch he
  | e :: es, ms, h => by
    simp only [denList, operands] at h
    cases h1 : operand (den e).plain c with
    | none => simp [h1] at h
    | some m =>
      cases h2 : operands c (denList es) with
      | none => simp [h1, h2] at h
      | some ms' =>
        intro x hx
        rcases List.mem_cons.1 hx with rfl | hx
        · obtain ⟨u, h3, h4⟩ := operand_some h1
          exact ⟨none, u, m, h3, h4⟩
        · exact Acc.ofOperands h2 x hx

/-- A sum that is a number. -/
theorem Acc.ofAdd {c : Ctx} {es : List Expr} {exp : Option RType} {m : M} (h : (den (add es)).plain c exp = some (.usize, m)) :
    Acc c es := by
  by_cases h1 : ∃ e, es = [e]
  · obtain ⟨e, rfl⟩ := h1
    intro x hx
    rw [List.mem_singleton] at hx
    subst hx
    exact ⟨exp, _, m, h, .inl rfl⟩
  · have : add es = .sum es := by
      match es with
      | [] => rfl
      | [e] => exact absurd ⟨e, rfl⟩ h1
      | _ :: _ :: _ => rfl
    rw [this] at h
    simp only [den, Arg.expr, sumSem] at h
    cases h2 : operands c (denList es) with
    | none => simp [h2] at h
    | some ms => exact Acc.ofOperands h2

theorem same_usize {o : BytesType} {u : RType} (h : u.same o .usize = true) : u = .usize := by
  cases u <;> first | rfl | simp [RType.same] at h

theorem same_unit {o : BytesType} {u : RType} (h : u.same o .unit = true) : u = .unit := by
  cases u <;> first | rfl | simp [RType.same] at h

theorem check_some {e : Elab} {c : Ctx} {t : RType} {m : M} (h : e.check c t = some m) :
    ∃ u, e c (some t) = some (u, m) ∧ u.same c.opts t = true := by
  unfold Elab.check at h
  split at h
  · next u m' he =>
    split at h
    · next hs =>
      injection h with h
      subst h
      exact ⟨u, he, hs⟩
    · simp at h
  · simp at h

theorem fn_some {xs : List String} {body : List Stmt} {c : Ctx} {ps : List RType} {ret : RType} {f : List RVal → M}
    (h : (den (.closure xs body)).fn c ps ret = some f) :
    ∃ u m, seqSem (denStmts body) (c.clos xs ps ret) (some ret) = some (u, m) ∧ u.same c.opts ret = true := by
  simp only [den, Arg.fn] at h
  split at h
  · cases h1 : Elab.check (seqSem (denStmts body)) (c.clos xs ps ret) ret with
    | none => simp [h1] at h
    | some m =>
      obtain ⟨u, h2, h3⟩ := check_some h1
      exact ⟨u, m, h2, h3⟩
  · simp at h

/-- A closure for the size of an element. -/
theorem clos_acc {c : Ctx} {x : String} {T : Ty} {es : List Expr} {f : List RVal → M}
    (h : (den (.closure [x] [.tail (add es)])).fn c [.ref (.own T)] .usize = some f) :
    ∃ c' m, c'.opts = c.opts ∧ c'.scope = c.scope ∧ Place c' (.var x) 1 T m ∧ Acc c' es := by
  obtain ⟨u, m, h1, h2⟩ := fn_some h
  have := same_usize h2
  subst this
  simp only [denStmts, denStmt, seqSem] at h1
  refine ⟨c.clos [x] [.ref (.own T)] .usize, _, rfl, rfl, Place.var (b := false) ?_, Acc.ofAdd h1⟩
  simp only [Ctx.find, Ctx.clos, typeAll, List.nil_append, List.cons_append]
  exact lookup_head _ _ _

theorem Acc.one {c : Ctx} {e : Expr} (h : Acc c [e]) :
    ∃ exp u m, (den e).plain c exp = some (u, m) ∧ (u = .usize ∨ u = .ref .usize) := h e List.mem_cons_self

theorem Acc.call {c : Ctx} {f : Fn} {args : List Expr} (h : Acc c [.call f args]) :
    ∃ exp r, callSem f (denList args) c exp = some r := by
  obtain ⟨exp, u, m, h, _⟩ := h.one
  exact ⟨exp, _, h⟩

theorem need_sizeVec {c : Ctx} {e : Arg} {cl : Arg} {T : Ty} {m : M} {exp : Option RType} {r : RType × M}
    (he : e.behind c = some (.vec T, m)) (h : callSem .sizeVec [e, cl] c exp = some r) :
    ∃ f, cl.fn c [.ref (.own T)] .usize = some f := by
  cases hf : cl.fn c [.ref (.own T)] .usize with
  | none => simp [callSem, he, hf] at h
  | some f => exact ⟨f, rfl⟩

theorem need_sizeSet {c : Ctx} {e : Arg} {cl : Arg} {T : Ty} {m : M} {exp : Option RType} {r : RType × M}
    (he : e.behind c = some (.hashSet T, m)) (h : callSem .sizeHashSet [e, cl] c exp = some r) :
    ∃ f, cl.fn c [.ref (.own T)] .usize = some f := by
  cases hf : cl.fn c [.ref (.own T)] .usize with
  | none => simp [callSem, he, hf] at h
  | some f => exact ⟨f, rfl⟩

theorem need_sizeArray {c : Ctx} {e : Arg} {cl : Arg} {T : Ty} {n : Nat} {m : M} {exp : Option RType} {r : RType × M}
    (he : e.behind c = some (.array T n, m)) (h : callSem .sizeArray [e, cl] c exp = some r) :
    ∃ f, cl.fn c [.ref (.own T)] .usize = some f := by
  cases hf : cl.fn c [.ref (.own T)] .usize with
  | none => simp [callSem, he, hf] at h
  | some f => exact ⟨f, rfl⟩

theorem need_sizeMap {c : Ctx} {e ck cv : Arg} {K V : Ty} {m : M} {exp : Option RType} {r : RType × M}
    (he : e.behind c = some (.hashMap K V, m)) (h : callSem .sizeHashMap [e, ck, cv] c exp = some r) :
    (∃ f, ck.fn c [.ref (.own K)] .usize = some f) ∧ ∃ f, cv.fn c [.ref (.own V)] .usize = some f := by
  cases hf : ck.fn c [.ref (.own K)] .usize with
  | none => simp [callSem, he, hf] at h
  | some f =>
    cases hg : cv.fn c [.ref (.own V)] .usize with
    | none => simp [callSem, he, hf, hg] at h
    | some g => exact ⟨⟨f, rfl⟩, g, rfl⟩

theorem need_sizeOption {c : Ctx} {e cl : Arg} {T : Ty} {k : Nat} {m : M} {exp : Option RType} {r : RType × M}
    (he : e.plain c none = some (refN k (.optRef T), m)) (h : callSem .sizeOption [e, cl] c exp = some r) :
    k = 0 ∧ ∃ f, cl.fn c [.ref (.own T)] .usize = some f := by
  cases k with
  | succ k => simp [callSem, he, refN] at h
  | zero =>
    refine ⟨rfl, ?_⟩
    cases hf : cl.fn c [.ref (.own T)] .usize with
    | none => simp [callSem, he, hf, refN] at h
    | some f => exact ⟨f, rfl⟩

theorem refLeaf_accepted {o : BytesType} {p : Prim} (hp : byValue p = false) (h : (refLeaf o p).accepts o (.prim p) = true) :
    o = .vecU8 ∨ p ≠ .boxBytes := by
  cases p <;> cases o <;> simp_all [byValue, refLeaf, RefLeaf.accepts]

theorem need_sizeRef {c : Ctx} {e : Arg} {l : RefLeaf} {T : Ty} {m : M} {exp : Option RType} {r : RType × M}
    (he : e.behind c = some (T, m)) (h : callSem (.sizeRef l) [e] c exp = some r) : l.accepts c.opts T = true := by
  cases ha : l.accepts c.opts T with
  | true => rfl
  | false => simp [callSem, he, ha] at h

theorem need_sizeVal {c : Ctx} {e : Arg} {p : Prim} {u : RType} {m : M} {exp : Option RType} {r : RType × M}
    (he : e.plain c (some (.own (.prim p))) = some (u, m)) (h : callSem (.sizeVal p) [e] c exp = some r) :
    u.same c.opts (.own (.prim p)) = true := by
  cases ha : u.same c.opts (.own (.prim p)) with
  | true => rfl
  | false => simp [callSem, Elab.check, he, ha] at h

mutual
/-- The code for the size of a type. -/
theorem size_need (o : BytesType) (sc : Scope) : ∀ (t : Simplify.Ty) (k : Nat) (n : Name) (c : Ctx) (m : M) (es : List Expr),
    n.refs = k → c.opts = o → c.scope = sc → Place c n (if k = 0 then 1 else 0) (low sc t) m → sizeOps o t n = some es →
    Acc c es → refOk o sc.arity k (low sc t) = true
  | .prim p, k, n, c, m, es, hn, hc, hs, hp, he, ha => by
    simp only [sizeOps, Option.some.injEq] at he
    subst he
    simp only [low, Build.lowerTy, refOk] at hp ⊢
    by_cases hb : byValue p = true
    · rw [if_pos hb]
      simp only [sizePrim, hb, if_true] at ha
      obtain ⟨exp, r, h⟩ := ha.call
      by_cases hk : k ≤ 1
      · simpa using hk
      · simp only [denList, callSem, Elab.check, Name.deref, den, Arg.expr, derefSem, hp.expr] at h
        obtain ⟨j, hj⟩ : ∃ j, n.refs + (if k = 0 then 1 else 0) = j + 2 := ⟨k - 2, by split <;> omega⟩
        rw [hj] at h
        simp [refN] at h
    · have hb : byValue p = false := by simpa using hb
      simp only [hb, Bool.false_eq_true, if_false, sizePrim] at ha ⊢
      obtain ⟨exp, r, h⟩ := ha.call
      have := need_sizeRef (hp.behind (place_depth hn)) h
      rw [hc] at this
      simpa using refLeaf_accepted hb this
  | .vec t, k, n, c, m, es, hn, hc, hs, hp, he, ha => by
    simp only [low, Build.lowerTy, refOk] at hp ⊢
    simp only [sizeOps] at he
    cases h1 : sizeOps o t (.var "v") with
    | none => simp [h1] at he
    | some es' =>
      simp [h1] at he
      subst he
      obtain ⟨exp, r, h⟩ := ha.call
      obtain ⟨f, hf⟩ := need_sizeVec (hp.behind (place_depth hn)) h
      obtain ⟨c', m', h2, h3, h4, h5⟩ := clos_acc hf
      exact size_need o sc t 0 _ c' m' es' rfl (h2.trans hc) (h3.trans hs) h4 h1 h5
  | .hashMap a b, k, n, c, m, es, hn, hc, hs, hp, he, ha => by
    simp only [low, Build.lowerTy, refOk, Bool.and_eq_true] at hp ⊢
    simp only [sizeOps] at he
    cases h1 : sizeOps o a (.var "k") with
    | none => simp [h1] at he
    | some es1 =>
      cases h1' : sizeOps o b (.var "v") with
      | none => simp [h1, h1'] at he
      | some es2 =>
        simp [h1, h1'] at he
        subst he
        obtain ⟨exp, r, h⟩ := ha.call
        obtain ⟨⟨f, hf⟩, g, hg⟩ := need_sizeMap (hp.behind (place_depth hn)) h
        obtain ⟨c', m', h2, h3, h4, h5⟩ := clos_acc hf
        obtain ⟨c2, m2, h6, h7, h8, h9⟩ := clos_acc hg
        exact ⟨size_need o sc a 0 _ c' m' es1 rfl (h2.trans hc) (h3.trans hs) h4 h1 h5,
          size_need o sc b 0 _ c2 m2 es2 rfl (h6.trans hc) (h7.trans hs) h8 h1' h9⟩
  | .hashSet t, k, n, c, m, es, hn, hc, hs, hp, he, ha => by
    simp only [low, Build.lowerTy, refOk] at hp ⊢
    simp only [sizeOps] at he
    cases h1 : sizeOps o t (.var "v") with
    | none => simp [h1] at he
    | some es' =>
      simp [h1] at he
      subst he
      obtain ⟨exp, r, h⟩ := ha.call
      obtain ⟨f, hf⟩ := need_sizeSet (hp.behind (place_depth hn)) h
      obtain ⟨c', m', h2, h3, h4, h5⟩ := clos_acc hf
      exact size_need o sc t 0 _ c' m' es' rfl (h2.trans hc) (h3.trans hs) h4 h1 h5
  | .option t, k, n, c, m, es, hn, hc, hs, hp, he, ha => by
    simp only [low, Build.lowerTy, refOk, Bool.and_eq_true, decide_eq_true_eq] at hp ⊢
    simp only [sizeOps] at he
    cases h1 : sizeOps o t (.var "v") with
    | none => simp [h1] at he
    | some es' =>
      simp [h1] at he
      subst he
      obtain ⟨exp, r, h⟩ := ha.call
      have hm := hp.method (f := .asRef) (args := []) (u := .optRef (low sc t)) (m' := m)
        (fun e he exp => by simp [methodSem, he, strip_refN, denList]) none
      obtain ⟨hk, f, hf⟩ := need_sizeOption hm h
      obtain ⟨c', m', h2, h3, h4, h5⟩ := clos_acc hf
      exact ⟨by omega, size_need o sc t 0 _ c' m' es' rfl (h2.trans hc) (h3.trans hs) h4 h1 h5⟩
  | .nonZero t, k, n, c, m, es, hn, hc, hs, hp, he, ha => by
    simp only [low, Build.lowerTy] at hp ⊢
    rw [sizeOps] at he
    exact size_nz_need o sc t k n c m es hn hc hs hp he ha
  | .tuple ts, k, n, c, m, es, hn, hc, hs, hp, he, ha => by
    simp only [low, Build.lowerTy, refOk, Bool.and_eq_true, lowerTys_length] at hp ⊢
    simp only [sizeOps] at he
    by_cases hl : tupleArm ts.length = true
    · rw [if_pos hl] at he
      exact ⟨hl, size_items_need o sc (Build.lowerTys sc.look sc.generics ts) ts k n 0 c m es hn hc hs hp (by simp) he ha⟩
    · rw [if_neg hl] at he
      cases he
  | .array t l, k, n, c, m, es, hn, hc, hs, hp, he, ha => by
    simp only [low, Build.lowerTy, refOk] at hp ⊢
    simp only [sizeOps] at he
    cases h1 : sizeOps o t (.var "v") with
    | none => simp [h1] at he
    | some es' =>
      simp [h1] at he
      subst he
      obtain ⟨exp, r, h⟩ := ha.call
      obtain ⟨f, hf⟩ := need_sizeArray (hp.behind (place_depth hn)) h
      obtain ⟨c', m', h2, h3, h4, h5⟩ := clos_acc hf
      exact size_need o sc t 0 _ c' m' es' rfl (h2.trans hc) (h3.trans hs) h4 h1 h5
  | .external path name args, k, n, c, m, es, hn, hc, hs, hp, he, ha => by
    simp only [sizeOps, Option.some.injEq] at he
    subst he
    obtain ⟨exp, u, m', h, hu⟩ := ha.one
    have key : k ≤ 1 ∧ hasEnc o sc.arity (low sc (.external path name args)) = true := by
      cases hh : hasEnc o sc.arity (low sc (.external path name args)) with
      | false =>
        exfalso
        have h0 : ∀ exp, (den (.method n.base .size [])).plain c exp = none := fun exp => by
          simp [den, Arg.expr, methodSem, hp none, strip_refN, denList, hc, hs, hh]
        have : ∀ j exp, (den (refs j (.method n.base .size []))).plain c exp = none := by
          intro j
          induction j with
          | zero => exact h0
          | succ j ih =>
            intro exp
            simp only [refs, den, Arg.expr, refSem, ih none]
            rfl
        rw [Name.method, this] at h
        cases h
      | true =>
        refine ⟨?_, rfl⟩
        have hm := hp.method (f := .size) (args := []) (u := .usize)
          (m' := m.bind (onVal (traitSizeM (low sc (.external path name args)))))
          (fun e he exp => by simp [methodSem, he, strip_refN, denList, hc, hs, hh]) exp
        rw [hm] at h
        injection h with h
        injection h with h _
        match k, hn with
        | 0, _ => omega
        | 1, _ => omega
        | k + 2, hn =>
          rw [hn] at h
          simp only [refN] at h
          subst h
          rcases hu with hu | hu <;> cases hu
    simp only [low, Build.lowerTy] at key ⊢
    by_cases hg : path = [] ∧ name ∈ sc.generics
    · rw [if_pos hg]
      simpa [refOk] using key.1
    · rw [if_neg hg] at key ⊢
      simpa [refOk] using key
/-- Under `non_zero`. -/
theorem size_nz_need (o : BytesType) (sc : Scope) : ∀ (t : Simplify.Ty) (k : Nat) (n : Name) (c : Ctx) (m : M) (es : List Expr),
    n.refs = k → c.opts = o → c.scope = sc → Place c n (if k = 0 then 1 else 0) (.nonZero (low sc t)) m →
    sizeNonZero o t n = some es → Acc c es → refOk o sc.arity k (.nonZero (low sc t)) = true
  | .prim p, k, n, c, m, es, hn, hc, hs, hp, he, ha => by
    simp only [low, Build.lowerTy, refOk, Bool.and_eq_true, Bool.or_eq_true, Bool.not_eq_true', decide_eq_true_eq] at hp ⊢
    simp only [sizeNonZero] at he
    by_cases hi : isInt p = true
    · rw [if_pos hi] at he
      injection he with he
      subst he
      obtain ⟨exp, r, h⟩ := ha.call
      refine ⟨by cases p <;> first | rfl | simp [isInt] at hi, .inr ?_⟩
      have hm := refs_den (c := c) (e := .method n.base .get []) (t := .own (.prim p)) (m := m)
        (fun exp => by simp [den, Arg.expr, methodSem, hp none, strip_refN, denList, isInt_nonZero, hi]) n.refs
      have hsame := need_sizeVal (e := den n.get.expr) (hm _) h
      match k, hn with
      | 0, _ => rfl
      | k + 1, hn =>
        rw [hn] at hsame
        simp [refN, RType.same] at hsame
    · have hi : isInt p = false := by simpa using hi
      simp only [hi, Bool.false_eq_true, if_false] at he
      by_cases hz : nzInner (.prim p) = true
      · refine ⟨by cases p <;> first | rfl | simp [nzInner] at hz, .inl hi⟩
      · rw [if_neg hz] at he
        cases he
  | .vec t, k, n, c, m, es, hn, hc, hs, hp, he, ha => by
    simp only [low, Build.lowerTy, refOk] at hp ⊢
    simp only [sizeNonZero] at he
    cases h1 : sizeOps o t (.var "v") with
    | none => simp [h1] at he
    | some es' =>
      simp [h1] at he
      subst he
      obtain ⟨exp, r, h⟩ := ha.call
      have hg := Place.get hp (fun q hq => nomatch hq)
      obtain ⟨f, hf⟩ := need_sizeVec (hg.behind (by omega)) h
      obtain ⟨c', m', h2, h3, h4, h5⟩ := clos_acc hf
      exact size_need o sc t 0 _ c' m' es' rfl (h2.trans hc) (h3.trans hs) h4 h1 h5
  | .hashMap a b, k, n, c, m, es, hn, hc, hs, hp, he, ha => by
    simp only [low, Build.lowerTy, refOk, Bool.and_eq_true] at hp ⊢
    simp only [sizeNonZero] at he
    cases h1 : sizeOps o a (.var "k") with
    | none => simp [h1] at he
    | some es1 =>
      cases h1' : sizeOps o b (.var "v") with
      | none => simp [h1, h1'] at he
      | some es2 =>
        simp [h1, h1'] at he
        subst he
        obtain ⟨exp, r, h⟩ := ha.call
        have hg' := Place.get hp (fun q hq => nomatch hq)
        obtain ⟨⟨f, hf⟩, g, hg⟩ := need_sizeMap (hg'.behind (by omega)) h
        obtain ⟨c', m', h2, h3, h4, h5⟩ := clos_acc hf
        obtain ⟨c2, m2, h6, h7, h8, h9⟩ := clos_acc hg
        exact ⟨size_need o sc a 0 _ c' m' es1 rfl (h2.trans hc) (h3.trans hs) h4 h1 h5,
          size_need o sc b 0 _ c2 m2 es2 rfl (h6.trans hc) (h7.trans hs) h8 h1' h9⟩
  | .hashSet t, k, n, c, m, es, hn, hc, hs, hp, he, ha => by
    simp only [low, Build.lowerTy, refOk] at hp ⊢
    simp only [sizeNonZero] at he
    cases h1 : sizeOps o t (.var "v") with
    | none => simp [h1] at he
    | some es' =>
      simp [h1] at he
      subst he
      obtain ⟨exp, r, h⟩ := ha.call
      have hg := Place.get hp (fun q hq => nomatch hq)
      obtain ⟨f, hf⟩ := need_sizeSet (hg.behind (by omega)) h
      obtain ⟨c', m', h2, h3, h4, h5⟩ := clos_acc hf
      exact size_need o sc t 0 _ c' m' es' rfl (h2.trans hc) (h3.trans hs) h4 h1 h5
  | .option t, k, n, c, m, es, hn, hc, hs, hp, he, ha => by simp [sizeNonZero] at he
  | .nonZero t, k, n, c, m, es, hn, hc, hs, hp, he, ha => by simp [sizeNonZero] at he
  | .tuple ts, k, n, c, m, es, hn, hc, hs, hp, he, ha => by simp [sizeNonZero] at he
  | .array t l, k, n, c, m, es, hn, hc, hs, hp, he, ha => by simp [sizeNonZero] at he
  | .external path name args, k, n, c, m, es, hn, hc, hs, hp, he, ha => by simp [sizeNonZero] at he
/-- The elements of a tuple. -/
theorem size_items_need (o : BytesType) (sc : Scope) (ts : List Ty) : ∀ (us : List Simplify.Ty) (k : Nat) (n : Name) (i : Nat)
    (c : Ctx) (m : M) (es : List Expr), n.refs = k → c.opts = o → c.scope = sc →
    Place c n (if k = 0 then 1 else 0) (.tuple ts) m → ts.drop i = Build.lowerTys sc.look sc.generics us →
    sizeItems o us n i = some es → Acc c es → refOks o sc.arity (k + 1) (Build.lowerTys sc.look sc.generics us) = true
  | [], k, n, i, c, m, es, hn, hc, hs, hp, hd, he, ha => rfl
  | u :: us, k, n, i, c, m, es, hn, hc, hs, hp, hd, he, ha => by
    simp only [Build.lowerTys, refOks, Bool.and_eq_true] at hd ⊢
    simp only [sizeItems] at he
    cases h1 : sizeOps o u (n.item i) with
    | none => simp [h1] at he
    | some es1 =>
      cases h2 : sizeItems o us n (i + 1) with
      | none => simp [h1, h2] at he
      | some es2 =>
        simp [h1, h2] at he
        subst he
        have hi : ts[i]? = some (low sc u) := by
          have := congrArg (fun l => l[0]?) hd
          simpa using this
        have hd' : ts.drop (i + 1) = Build.lowerTys sc.look sc.generics us := by
          rw [← List.drop_drop, hd]
          rfl
        exact ⟨size_need o sc u (k + 1) (n.item i) c _ es1 (by simp [Name.item, hn]) hc hs (hp.item hi) h1
            (fun e he => ha e (List.mem_append_left _ he)),
          size_items_need o sc ts us k n (i + 1) c m es2 hn hc hs hp hd' h2 (fun e he => ha e (List.mem_append_right _ he))⟩
end

end Mabo.Rust
