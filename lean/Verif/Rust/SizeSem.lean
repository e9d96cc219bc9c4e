import Verif.Rust.Good
import Verif.Rust.Elab
import Verif.RoundTrip
/-!
The generated sizes: the code of `sizeOps` compiles and computes `Codegen.size`.
-/
namespace Mabo.Rust
open Mabo.Buf Mabo.Codegen
open Mabo.Schema (Prim Ty Val wt wtList wtEntries wtTuple Env)

/-! ### Executions -/

theorem Out.bind_assoc (a : Out) (f g : RVal → St → Out) :
    (a.bind f).bind g = a.bind fun v s => (f v s).bind g := by cases a <;> rfl

theorem M.bind_assoc (a : M) (f g : RVal → M) : (a.bind f).bind g = a.bind fun v => (f v).bind g := by
  funext W s
  exact Out.bind_assoc _ _ _

theorem M.bind_ok {m : M} {k : RVal → M} {W : World} {s s' : St} {v : RVal} (h : m W s = .ok v s') :
    m.bind k W s = k v W s' := by
  simp only [M.bind, h, Out.bind]

theorem addM_ok {a b : M} {W : World} {s : St} {x y : Nat} (ha : a W s = .ok (.usize x) s) (hb : b W s = .ok (.usize y) s) :
    addM a b W s = .ok (.usize (x + y)) s := by
  unfold addM
  rw [M.bind_ok ha]
  simp only [onUsize]
  rw [M.bind_ok hb]
  rfl

/-- Numbers that add up. -/
def Sums (W : World) (s : St) : List M → Nat → Prop
  | [], n => n = 0
  | m :: ms, n => ∃ a b, m W s = .ok (.usize a) s ∧ Sums W s ms b ∧ n = a + b

theorem Sums.append {W : World} {s : St} : ∀ {ms ms' : List M} {a b : Nat}, Sums W s ms a → Sums W s ms' b →
    Sums W s (ms ++ ms') (a + b)
  | [], _, _, _, h, h' => by
    have h : _ = 0 := h
    subst h
    rw [Nat.zero_add]
    exact h'
  | m :: ms, _, _, _, ⟨x, y, hx, hy, e⟩, h' => ⟨x, y + _, hx, Sums.append hy h', by omega⟩

theorem sumsM_ok {W : World} {s : St} : ∀ {ms : List M} {m : M} {a b : Nat}, m W s = .ok (.usize a) s → Sums W s ms b →
    sumsM m ms W s = .ok (.usize (a + b)) s
  | [], _, _, _, hm, h => by
    have h : _ = 0 := h
    subst h
    exact hm
  | _ :: _, _, _, _, hm, ⟨x, y, hx, hy, e⟩ => by
    rw [sumsM, sumsM_ok (addM_ok hm hx) hy, e, Nat.add_assoc]

/-! ### Names -/

/-- References to a type. -/
def refN : Nat → RType → RType
  | 0, t => t
  | n + 1, t => .ref (refN n t)

/-- The base of a name is an expression of the type behind `d` references. -/
def Place (c : Ctx) (n : Name) (d : Nat) (t : Ty) (m : M) : Prop :=
  ∀ exp, (den n.base).plain c exp = some (refN d (.own t), m)

theorem refN_ref (n : Nat) (t : RType) : refN n (.ref t) = .ref (refN n t) := by
  induction n with
  | zero => rfl
  | succ n ih => rw [refN, ih, refN]

theorem refN_add (n d : Nat) (t : RType) : refN (n + d) t = refN n (refN d t) := by
  induction n with
  | zero => rw [Nat.zero_add, refN]
  | succ n ih => rw [Nat.succ_add, refN, refN, ih]

theorem strip_refN (n : Nat) (t : Ty) : (refN n (.own t)).strip = .own t := by
  induction n with
  | zero => rfl
  | succ n ih => exact ih

theorem refs_den {c : Ctx} {e : Expr} {t : RType} {m : M} (h : ∀ exp, (den e).plain c exp = some (t, m)) (n : Nat) :
    ∀ exp, (den (refs n e)).plain c exp = some (refN n t, m) := by
  induction n with
  | zero => exact h
  | succ n ih =>
    intro exp
    simp only [refs, den, Arg.expr, refSem, ih none, refN]
    rfl

theorem Place.expr {c : Ctx} {n : Name} {d : Nat} {t : Ty} {m : M} (h : Place c n d t m) (exp : Option RType) :
    (den n.expr).plain c exp = some (refN (n.refs + d) (.own t), m) := by
  rw [Name.expr, refs_den h, refN_add]

theorem Place.behind {c : Ctx} {n : Name} {d : Nat} {t : Ty} {m : M} (h : Place c n d t m) (hd : 1 ≤ n.refs + d) :
    (den n.expr).behind c = some (t, m) := by
  rw [Arg.behind, h.expr]
  obtain ⟨k, hk⟩ : ∃ k, n.refs + d = k + 1 := ⟨n.refs + d - 1, by omega⟩
  rw [hk]
  simp only [refN, RType.behind, strip_refN]

theorem Place.deref {c : Ctx} {n : Name} {d : Nat} {p : Prim} {m : M} (h : Place c n d (.prim p) m) (hd : n.refs + d = 1)
    (hp : byValue p = true) (exp : Option RType) :
    (den n.deref).plain c exp = some (.own (.prim p), m) := by
  simp only [Name.deref, den, Arg.expr, derefSem, h.expr, hd, refN]
  simp [hp]

theorem Place.item {c : Ctx} {n : Name} {d : Nat} {ts : List Ty} {m : M} (h : Place c n d (.tuple ts) m) {i : Nat} {t : Ty}
    (hi : ts[i]? = some t) :
    Place c (n.item i) 0 t (m.bind (onList (itemM i))) := by
  intro exp
  simp only [Name.item, den, Arg.expr, indexSem, h none]
  simp [strip_refN, hi, refN]

/-- A method of the base. -/
theorem Place.method {c : Ctx} {n : Name} {d : Nat} {t : Ty} {m : M} (h : Place c n d t m) {f : Meth} {args : List Expr}
    {u : RType} {m' : M}
    (hm : ∀ e : Elab, e c none = some (refN d (.own t), m) → ∀ exp, methodSem e f (denList args) c exp = some (u, m'))
    (exp : Option RType) : (den (n.method f args)).plain c exp = some (refN n.refs u, m') := by
  rw [Name.method]
  exact refs_den (fun exp => by simp only [den, Arg.expr]; exact hm _ (h none) exp) _ exp

/-- The non-zero types of the runtime crate. -/
theorem Place.get {c : Ctx} {n : Name} {d : Nat} {t : Ty} {m : M} (h : Place c n d (.nonZero t) m)
    (ht : ∀ p, t = .prim p → rustNonZero p = none) : Place c n.get 1 t m := by
  intro exp
  simp only [Name.get, den, Arg.expr, methodSem, h none, denList]
  cases t with
  | prim p => simp [strip_refN, ht p rfl, refN]
  | _ => simp [strip_refN, refN]

/-- Rust's own non-zero integers. -/
theorem Place.getInt {c : Ctx} {n : Name} {d : Nat} {p : Prim} {m : M} (h : Place c n d (.nonZero (.prim p)) m)
    (hp : (rustNonZero p).isSome = true) (hn : n.refs = 0) (exp : Option RType) :
    (den n.get.expr).plain c exp = some (.own (.prim p), m) := by
  simp only [Name.get, Name.expr, hn, refs, den, Arg.expr, methodSem, h none, denList]
  simp [strip_refN, hp]

/-- A variable. -/
theorem Place.var {c : Ctx} {x : String} {t : Ty} {b : Bool} (h : c.find x = some (.ref (.own t), b)) :
    Place c (.var x) 1 t (fun _ s =>
      match s.vars.lookup x with
      | some v => .ok v s
      | none => .panic) := by
  intro exp
  simp only [Name.var, den, Arg.expr, varSem, h, refN]
  rfl

/-! ### Sizes -/

/-- The traits compute the sizes of the model, for values up to a bound. -/
def SizeAgree (o : BytesType) (arity : List String → Option Nat) (env : Env) (args : List Ty) (B : Nat) (W : World) : Prop :=
  ∀ t v, hasEnc o arity t = true → wt env (t.subst args) v = true → sizeOf v ≤ B →
    W.size t v = some (Codegen.size env (t.subst args) v)

theorem SizeAgree.mono {o : BytesType} {arity : List String → Option Nat} {env : Env} {args : List Ty} {B B' : Nat} {W : World}
    (h : SizeAgree o arity env args B W) (hB : B' ≤ B) : SizeAgree o arity env args B' W :=
  fun t v ht hv hs => h t v ht hv (Nat.le_trans hs hB)

/-- An execution that computes the size of the value that another one yields. -/
def Sizes (o : BytesType) (arity : List String → Option Nat) (T : Ty) (m m' : M) : Prop :=
  ∀ env args W s v, m W s = .ok (.val v) s → wt env (T.subst args) v = true → SizeAgree o arity env args (sizeOf v) W →
    m' W s = .ok (.usize (Codegen.size env (T.subst args) v)) s

/-- A function that computes sizes. -/
def SizeFn (o : BytesType) (arity : List String → Option Nat) (T : Ty) (f : List RVal → M) : Prop :=
  ∀ env args W s v, wt env (T.subst args) v = true → SizeAgree o arity env args (sizeOf v) W →
    f [.val v] W s = .ok (.usize (Codegen.size env (T.subst args) v)) s

/-- The operands compute the size of what the name stands for. -/
def OpsOk (o : BytesType) (sc : Scope) (T : Ty) (k : Nat) (n : Name) (es : List Expr) : Prop :=
  ∀ c m, c.opts = o → c.scope = sc → Place c n (if k = 0 then 1 else 0) T m →
    ∃ ms, operands c (denList es) = some ms ∧
      (k = 0 → ∀ e, es = [e] → ∃ m', ms = [m'] ∧ ∀ exp, (den e).plain c exp = some (.usize, m')) ∧
      ∀ env args W s v, m W s = .ok (.val v) s → wt env (T.subst args) v = true →
        SizeAgree o sc.arity env args (sizeOf v) W → Sums W s ms (Codegen.size env (T.subst args) v)

theorem operands_length {c : Ctx} : ∀ {es : List Expr} {ms : List M}, operands c (denList es) = some ms → ms.length = es.length
  | [], ms, h => by
    simp only [denList, operands] at h
    injection h with h
    subst h
    rfl
  | e :: es, ms, h => by
    simp only [denList, operands] at h
    cases h1 : operand (den e).plain c with
    | none => simp [h1] at h
    | some m =>
      cases h2 : operands c (denList es) with
      | none => simp [h1, h2] at h
      | some ms' =>
        simp [h1, h2] at h
        subst h
        simp [operands_length h2]

theorem operands_append {c : Ctx} : ∀ {es es' : List Expr} {ms ms' : List M}, operands c (denList es) = some ms →
    operands c (denList es') = some ms' → operands c (denList (es ++ es')) = some (ms ++ ms')
  | [], es', ms, ms', h, h' => by
    simp only [denList, operands] at h
    injection h with h
    subst h
    exact h'
  | e :: es, es', ms, ms', h, h' => by
    simp only [denList, operands] at h
    cases h1 : operand (den e).plain c with
    | none => simp [h1] at h
    | some m =>
      cases h2 : operands c (denList es) with
      | none => simp [h1, h2] at h
      | some ms'' =>
        simp [h1, h2] at h
        subst h
        simp [denList, operands, h1, operands_append h2 h']

theorem operand_usize {c : Ctx} {e : Expr} {m : M} (h : ∀ exp, (den e).plain c exp = some (.usize, m)) :
    operands c (denList [e]) = some [m] := by
  simp [denList, operands, operand, h]

theorem operand_ref {c : Ctx} {e : Expr} {m : M} (h : ∀ exp, (den e).plain c exp = some (.ref .usize, m)) :
    operands c (denList [e]) = some [m] := by
  simp [denList, operands, operand, h]

/-- One operand. -/
theorem OpsOk.single {o : BytesType} {sc : Scope} {T : Ty} {k : Nat} {n : Name} {e : Expr}
    (h : ∀ c m, c.opts = o → c.scope = sc → Place c n (if k = 0 then 1 else 0) T m →
      ∃ m', (∀ exp, (den e).plain c exp = some (.usize, m')) ∧ Sizes o sc.arity T m m') : OpsOk o sc T k n [e] := by
  intro c m hc hs hp
  obtain ⟨m', he, hm⟩ := h c m hc hs hp
  refine ⟨[m'], operand_usize he, ?_, ?_⟩
  · intro _ e' he'
    injection he' with he' _
    subst he'
    exact ⟨m', rfl, he⟩
  · intro env args W s v hv hw ha
    exact ⟨_, 0, hm env args W s v hv hw ha, rfl, rfl⟩

/-- The sum of the operands. -/
theorem OpsOk.add {o : BytesType} {sc : Scope} {T : Ty} {n : Name} {es : List Expr} (h : OpsOk o sc T 0 n es) (hne : es ≠ [])
    {c : Ctx} {m : M} (hc : c.opts = o) (hs : c.scope = sc) (hp : Place c n 1 T m) :
    ∃ m', (∀ exp, (den (add es)).plain c exp = some (.usize, m')) ∧ Sizes o sc.arity T m m' := by
  obtain ⟨ms, h1, h2, h3⟩ := h c m hc hs hp
  have hl := operands_length h1
  match es, hne with
  | [e], _ =>
    obtain ⟨m', rfl, he⟩ := h2 rfl e rfl
    refine ⟨m', he, ?_⟩
    intro env args W s v hv hw ha
    obtain ⟨a, b, hm, hb, e'⟩ := h3 env args W s v hv hw ha
    have hb : b = 0 := hb
    subst hb
    rw [e', Nat.add_zero]
    exact hm
  | e :: e' :: es, _ =>
    match ms, hl with
    | m1 :: m2 :: ms, _ =>
      refine ⟨sumsM (addM m1 m2) ms, ?_, ?_⟩
      · intro exp
        simp [Rust.add, den, Arg.expr, sumSem, h1]
      · intro env args W s v hv hw ha
        obtain ⟨a, b, hm, ⟨a', b', hm', hb, e1⟩, e2⟩ := h3 env args W s v hv hw ha
        rw [sumsM_ok (addM_ok hm hm') hb, e2, e1, Nat.add_assoc]

theorem lookup_head {α β : Type} [BEq α] [LawfulBEq α] (x : α) (b : β) (l : List (α × β)) : List.lookup x ((x, b) :: l) = some b := by
  simp [List.lookup]

theorem fn_eq {xs : List String} {body : List Stmt} {c : Ctx} {ps : List RType} {ret : RType} {m : M}
    (hl : xs.length = ps.length) (hn : xs.Nodup)
    (h : Elab.check (seqSem (denStmts body)) (c.clos xs ps ret) ret = some m) :
    (den (.closure xs body)).fn c ps ret = some (closM xs m) := by
  simp only [den, Arg.fn]
  rw [if_pos ⟨hl, hn⟩, h]
  rfl

theorem closM_ok {xs : List String} {m : M} {vs : List RVal} {W : World} {s s' : St} {v : RVal}
    (h : m W { s with vars := bindAll xs vs ++ s.vars } = .ok v s') : closM xs m vs W s = .ok v { s' with vars := s.vars } := by
  simp only [closM, h]

theorem check_eq {e : Elab} {c : Ctx} {t : RType} {m : M} (h : e c (some t) = some (t, m)) (hs : t.same c.opts t = true) :
    e.check c t = some m := by
  simp only [Elab.check, h, hs, if_true]

/-- A closure around the sum. -/
theorem OpsOk.clos {o : BytesType} {sc : Scope} {T : Ty} {x : String} {es : List Expr} (h : OpsOk o sc T 0 (.var x) es)
    (hne : es ≠ []) {c : Ctx} (hc : c.opts = o) (hs : c.scope = sc) :
    ∃ f, (den (.closure [x] [.tail (Rust.add es)])).fn c [.ref (.own T)] .usize = some f ∧ SizeFn o sc.arity T f := by
  have hp : Place (c.clos [x] [.ref (.own T)] .usize) (.var x) 1 T _ :=
    Place.var (b := false) (by simp [Ctx.clos, Ctx.find, typeAll])
  obtain ⟨m', he, hm⟩ := h.add (c := c.clos [x] [.ref (.own T)] .usize) hne hc hs hp
  refine ⟨_, fn_eq rfl (by simp) (check_eq (by simpa only [denStmts, denStmt, seqSem] using he _) rfl), ?_⟩
  intro env args W s v hw ha
  have := closM_ok (hm env args W { s with vars := bindAll [x] [.val v] ++ s.vars } v (by simp [bindAll]) hw ha)
  exact this

theorem sumM_ok {f : Val → M} {g : Val → Nat} {W : World} {s : St} : ∀ {xs : List Val},
    (∀ x, x ∈ xs → f x W s = .ok (.usize (g x)) s) → sumM f xs W s = .ok (.usize (sumSizes g xs)) s
  | [], _ => rfl
  | x :: xs, h => by
    rw [sumM, M.bind_ok (h x (List.mem_cons_self ..)), M.bind_ok (sumM_ok fun y hy => h y (List.mem_cons_of_mem _ hy))]
    rfl

theorem wt_vec {env : Env} {t : Ty} {v : Val} (h : wt env (.vec t) v = true) : ∃ xs, v = .list xs ∧ wtList env t xs = true := by
  unfold wt at h
  cases v <;> simp [Schema.Ty.strip, Schema.Ty.nzOk, Schema.Ty.isNz] at h
  exact ⟨_, rfl, h⟩

theorem wt_set {env : Env} {t : Ty} {v : Val} (h : wt env (.hashSet t) v = true) :
    ∃ xs, v = .list xs ∧ wtList env t xs = true := by
  unfold wt at h
  cases v <;> simp [Schema.Ty.strip, Schema.Ty.nzOk, Schema.Ty.isNz] at h
  exact ⟨_, rfl, h.1⟩

theorem wt_array {env : Env} {t : Ty} {n : Nat} {v : Val} (h : wt env (.array t n) v = true) :
    ∃ xs, v = .list xs ∧ xs.length = n ∧ wtList env t xs = true := by
  unfold wt at h
  cases v <;> simp [Schema.Ty.strip, Schema.Ty.nzOk, Schema.Ty.isNz] at h
  exact ⟨_, rfl, h⟩

theorem wt_map {env : Env} {k w : Ty} {v : Val} (h : wt env (.hashMap k w) v = true) :
    ∃ xs, v = .list xs ∧ wtEntries env k w xs = true := by
  unfold wt at h
  cases v <;> simp [Schema.Ty.strip, Schema.Ty.nzOk, Schema.Ty.isNz] at h
  exact ⟨_, rfl, h.1⟩

theorem wt_tuple {env : Env} {ts : List Ty} {v : Val} (h : wt env (.tuple ts) v = true) :
    ∃ xs, v = .list xs ∧ wtTuple env ts xs = true := by
  unfold wt at h
  cases v <;> simp [Schema.Ty.strip, Schema.Ty.nzOk, Schema.Ty.isNz] at h
  exact ⟨_, rfl, h.2⟩

theorem wtList_mem {env : Env} {t : Ty} : ∀ {xs : List Val}, wtList env t xs = true → ∀ x, x ∈ xs → wt env t x = true
  | y :: xs, h, x, hx => by
    rw [wtList, Bool.and_eq_true] at h
    rcases List.mem_cons.1 hx with rfl | hx
    · exact h.1
    · exact wtList_mem h.2 x hx

theorem wtEntries_mem {env : Env} {k w : Ty} : ∀ {xs : List Val}, wtEntries env k w xs = true → ∀ x, x ∈ xs →
    ∃ a b, x = .pair a b ∧ wt env k a = true ∧ wt env w b = true
  | [], _, _, hx => nomatch hx
  | y :: xs, h, x, hx => by
    cases y with
    | pair a b =>
      rw [wtEntries, Bool.and_eq_true, Bool.and_eq_true] at h
      rcases List.mem_cons.1 hx with rfl | hx
      · exact ⟨a, b, rfl, h.1⟩
      · exact wtEntries_mem h.2 x hx
    | _ => simp [wtEntries] at h

theorem mem_size {x : Val} {xs : List Val} (h : x ∈ xs) : sizeOf x ≤ sizeOf (Val.list xs) := by
  have := List.sizeOf_lt_of_mem h
  simp only [Val.list.sizeOf_spec]
  omega

theorem sizeEntries_eq (env : Env) (k w : Ty) (xs : List Val) :
    sizeEntries env k w xs = sumSizes (fun x =>
      match x with
      | .pair a b => Codegen.size env k a + Codegen.size env w b
      | _ => 0) xs := by
  induction xs with
  | nil => simp [sizeEntries, sumSizes]
  | cons x xs ih =>
    rw [sumSizes, ← ih]
    cases x <;> simp [sizeEntries]

/-- The sum of the sizes of elements. -/
theorem SizeFn.list {o : BytesType} {arity : List String → Option Nat} {T : Ty} {f : List RVal → M} (hf : SizeFn o arity T f)
    {env : Env} {args : List Ty} {W : World} {s : St} {xs : List Val} (hw : wtList env (T.subst args) xs = true)
    (ha : SizeAgree o arity env args (sizeOf (Val.list xs)) W) :
    sumM (fun v => f [.val v]) xs W s = .ok (.usize (sizeList env (T.subst args) xs)) s := by
  rw [sizeList_eq]
  exact sumM_ok fun x hx => hf env args W s x (wtList_mem hw x hx) (ha.mono (mem_size hx))

/-- The sum of the sizes of entries. -/
theorem SizeFn.entries {o : BytesType} {arity : List String → Option Nat} {K V : Ty} {f g : List RVal → M}
    (hf : SizeFn o arity K f) (hg : SizeFn o arity V g)
    {env : Env} {args : List Ty} {W : World} {s : St} {xs : List Val}
    (hw : wtEntries env (K.subst args) (V.subst args) xs = true)
    (ha : SizeAgree o arity env args (sizeOf (Val.list xs)) W) :
    sumM (onPair fun a b => addM (f [.val a]) (g [.val b])) xs W s =
      .ok (.usize (sizeEntries env (K.subst args) (V.subst args) xs)) s := by
  rw [sizeEntries_eq]
  refine sumM_ok fun x hx => ?_
  obtain ⟨a, b, rfl, h1, h2⟩ := wtEntries_mem hw x hx
  have h3 := mem_size hx
  simp only [Val.pair.sizeOf_spec] at h3
  exact addM_ok (hf env args W s a h1 (ha.mono (by omega))) (hg env args W s b h2 (ha.mono (by omega)))

/-! ### Calls -/

theorem call_sizeVal {o : BytesType} {arity : List String → Option Nat} {c : Ctx} {e : Expr} {p : Prim} {m : M}
    (h : ∀ exp, (den e).plain c exp = some (.own (.prim p), m)) (hp : byValue p = true) :
    ∃ m', (∀ exp, (den (.call (.sizeVal p) [e])).plain c exp = some (.usize, m')) ∧ Sizes o arity (.prim p) m m' := by
  refine ⟨m.bind (onVal fun v => pureM (.usize (sizeRep p.rep v))), ?_, ?_⟩
  · intro exp
    have hc : (den e).plain.check c (.own (.prim p)) = some m := check_eq (h _) (by simp [RType.same])
    simp [den, denList, Arg.expr, callSem, hc, hp]
  · intro env args W s v hv hw ha
    rw [M.bind_ok hv]
    simp [onVal, pureM, Schema.Ty.subst, Codegen.size, Schema.Ty.strip]

theorem call_sizeRef {o : BytesType} {arity : List String → Option Nat} {c : Ctx} {e : Expr} {p : Prim} {m : M} {k : RefLeaf}
    (h : (den e).behind c = some (.prim p, m)) (hk : k.accepts c.opts (.prim p) = true) (hr : k.prim.rep = p.rep) :
    ∃ m', (∀ exp, (den (.call (.sizeRef k) [e])).plain c exp = some (.usize, m')) ∧ Sizes o arity (.prim p) m m' := by
  refine ⟨m.bind (onVal fun v => pureM (.usize (sizeRep k.prim.rep v))), ?_, ?_⟩
  · intro exp
    simp [den, denList, Arg.expr, callSem, h, hk]
  · intro env args W s v hv hw ha
    rw [M.bind_ok hv]
    simp [onVal, pureM, Schema.Ty.subst, Codegen.size, Schema.Ty.strip, hr]

theorem call_sizeVec {o : BytesType} {arity : List String → Option Nat} {c : Ctx} {e cl : Expr} {T : Ty} {m : M}
    {f : List RVal → M} (h : (den e).behind c = some (.vec T, m)) (hf : (den cl).fn c [.ref (.own T)] .usize = some f)
    (hF : SizeFn o arity T f) :
    ∃ m', (∀ exp, (den (.call .sizeVec [e, cl])).plain c exp = some (.usize, m')) ∧ Sizes o arity (.vec T) m m' := by
  refine ⟨_, fun exp => by simp [den, denList, Arg.expr, callSem, h, hf]; rfl, ?_⟩
  intro env args W s v hv hw ha
  obtain ⟨xs, rfl, hx⟩ := wt_vec (t := T.subst args) hw
  rw [M.bind_ok hv]
  simp only [onList]
  rw [addM_ok (rfl : pureM _ W s = _) (hF.list hx ha)]
  simp [Schema.Ty.subst, Codegen.size, Schema.Ty.strip]

theorem call_sizeSet {o : BytesType} {arity : List String → Option Nat} {c : Ctx} {e cl : Expr} {T : Ty} {m : M}
    {f : List RVal → M} (h : (den e).behind c = some (.hashSet T, m)) (hf : (den cl).fn c [.ref (.own T)] .usize = some f)
    (hF : SizeFn o arity T f) :
    ∃ m', (∀ exp, (den (.call .sizeHashSet [e, cl])).plain c exp = some (.usize, m')) ∧ Sizes o arity (.hashSet T) m m' := by
  refine ⟨_, fun exp => by simp [den, denList, Arg.expr, callSem, h, hf]; rfl, ?_⟩
  intro env args W s v hv hw ha
  obtain ⟨xs, rfl, hx⟩ := wt_set (t := T.subst args) hw
  rw [M.bind_ok hv]
  simp only [onList]
  rw [addM_ok (rfl : pureM _ W s = _) (hF.list hx ha)]
  simp [Schema.Ty.subst, Codegen.size, Schema.Ty.strip]

theorem call_sizeArray {o : BytesType} {arity : List String → Option Nat} {c : Ctx} {e cl : Expr} {T : Ty} {n : Nat} {m : M}
    {f : List RVal → M} (h : (den e).behind c = some (.array T n, m)) (hf : (den cl).fn c [.ref (.own T)] .usize = some f)
    (hF : SizeFn o arity T f) :
    ∃ m', (∀ exp, (den (.call .sizeArray [e, cl])).plain c exp = some (.usize, m')) ∧ Sizes o arity (.array T n) m m' := by
  refine ⟨_, fun exp => by simp [den, denList, Arg.expr, callSem, h, hf]; rfl, ?_⟩
  intro env args W s v hv hw ha
  obtain ⟨xs, rfl, hl, hx⟩ := wt_array (t := T.subst args) hw
  rw [M.bind_ok hv]
  simp only [onList]
  rw [addM_ok (rfl : pureM _ W s = _) (hF.list hx ha)]
  show _ = Out.ok (.usize (Codegen.size env (.array (T.subst args) n) (.list xs))) s
  rw [Codegen.size.eq_def]
  simp only [Schema.Ty.strip, hl]

theorem call_sizeMap {o : BytesType} {arity : List String → Option Nat} {c : Ctx} {e ck cv : Expr} {K V : Ty} {m : M}
    {f g : List RVal → M} (h : (den e).behind c = some (.hashMap K V, m))
    (hf : (den ck).fn c [.ref (.own K)] .usize = some f) (hg : (den cv).fn c [.ref (.own V)] .usize = some g)
    (hF : SizeFn o arity K f) (hG : SizeFn o arity V g) :
    ∃ m', (∀ exp, (den (.call .sizeHashMap [e, ck, cv])).plain c exp = some (.usize, m')) ∧
      Sizes o arity (.hashMap K V) m m' := by
  refine ⟨_, fun exp => by simp [den, denList, Arg.expr, callSem, h, hf, hg]; rfl, ?_⟩
  intro env args W s v hv hw ha
  obtain ⟨xs, rfl, hx⟩ := wt_map (k := K.subst args) (w := V.subst args) hw
  rw [M.bind_ok hv]
  simp only [onList]
  rw [addM_ok (rfl : pureM _ W s = _) (hF.entries hG hx ha)]
  show _ = Out.ok (.usize (Codegen.size env (.hashMap (K.subst args) (V.subst args)) (.list xs))) s
  rw [Codegen.size.eq_def]
  simp only [Schema.Ty.strip]

theorem call_sizeOption {o : BytesType} {arity : List String → Option Nat} {c : Ctx} {e cl : Expr} {T : Ty} {m : M}
    {f : List RVal → M} (h : ∀ exp, (den e).plain c exp = some (.optRef T, m))
    (hf : (den cl).fn c [.ref (.own T)] .usize = some f) (hF : SizeFn o arity T f) :
    ∃ m', (∀ exp, (den (.call .sizeOption [e, cl])).plain c exp = some (.usize, m')) ∧ Sizes o arity (.option T) m m' := by
  refine ⟨_, fun exp => by simp [den, denList, Arg.expr, callSem, h, hf]; rfl, ?_⟩
  intro env args W s v hv hw ha
  rw [M.bind_ok hv]
  rcases wt_option_cases (t := T.subst args) hw with rfl | ⟨x, rfl, hx⟩
  · simp [onVal, pureM, Schema.Ty.subst, Codegen.size, Schema.Ty.strip]
  · simp only [onVal]
    rw [addM_ok (rfl : pureM _ W s = _) (hF env args W s x hx (ha.mono (by simp only [Val.some.sizeOf_spec]; omega)))]
    simp [Schema.Ty.subst, Codegen.size, Schema.Ty.strip]

theorem nzArg_subst {T : Ty} (h : T.nzArg = true) (args : List Ty) : (T.subst args).nzArg = true := by
  cases T <;> first | exact h | rfl | (simp [Schema.Ty.nzArg] at h)

theorem wt_nz_inner {env : Env} {T : Ty} {v : Val} (hT : T.nzArg = true) (h : wt env (.nonZero T) v = true) :
    wt env T v = true := by
  rw [wt.eq_def] at h ⊢
  cases T <;> simp only [Schema.Ty.nzArg, Schema.Ty.nzOk, Schema.Ty.isNz, Schema.Ty.strip, Bool.and_eq_true,
    Bool.not_false, Bool.true_or, true_and, Bool.false_eq_true] at h hT ⊢
  all_goals exact h.2

theorem size_nz_inner {env : Env} {T : Ty} {v : Val} (hT : T.nzArg = true) :
    Codegen.size env (.nonZero T) v = Codegen.size env T v := by
  rw [Codegen.size.eq_def, Codegen.size.eq_def env T]
  cases T <;> simp only [Schema.Ty.nzArg, Schema.Ty.strip, Bool.false_eq_true] at hT ⊢

theorem Sizes.nz {o : BytesType} {arity : List String → Option Nat} {T : Ty} {m m' : M} (h : Sizes o arity T m m')
    (hT : T.nzArg = true) : Sizes o arity (.nonZero T) m m' := by
  intro env args W s v hv hw ha
  have hT' := nzArg_subst hT args
  have := h env args W s v hv (wt_nz_inner hT' hw) ha
  rw [this]
  exact congrArg (fun n => Out.ok (.usize n) s) (size_nz_inner hT').symm

/-! ### All types -/

/-- The type of the schema in a scope. -/
abbrev low (sc : Scope) (t : Simplify.Ty) : Ty := Build.lowerTy sc.look sc.generics t

theorem place_depth {k : Nat} {n : Name} (hn : n.refs = k) : 1 ≤ n.refs + (if k = 0 then 1 else 0) := by
  split <;> omega

theorem refLeaf_accepts {o : BytesType} {p : Prim} (hp : byValue p = false) (h : o = .vecU8 ∨ p ≠ .boxBytes) :
    (refLeaf o p).accepts o (.prim p) = true := by
  cases p <;> cases o <;> simp_all [byValue, refLeaf, RefLeaf.accepts]

theorem refLeaf_rep {o : BytesType} {p : Prim} (hp : byValue p = false) : (refLeaf o p).prim.rep = p.rep := by
  cases p <;> cases o <;> first | rfl | simp [byValue] at hp

theorem isInt_byValue {p : Prim} (h : isInt p = true) : byValue p = true := by cases p <;> first | rfl | simp [isInt] at h
theorem isInt_nonZero {p : Prim} : (rustNonZero p).isSome = isInt p := by cases p <;> rfl
theorem nz_noInt {p : Prim} (h : nzPrim p = true) (hi : isInt p = false) : nzInner (.prim p) = true ∧ byValue p = false ∧ p ≠ .boxBytes := by
  cases p <;> simp_all [isInt, nzPrim, nzInner, byValue]
theorem nzPrim_arg {p : Prim} (h : nzPrim p = true) : (Ty.prim p).nzArg = true := by cases p <;> simp_all [nzPrim, Schema.Ty.nzArg]

theorem lowerTys_length (sc : Scope) (ts : List Simplify.Ty) :
    (Build.lowerTys sc.look sc.generics ts).length = ts.length := by
  induction ts with
  | nil => simp [Build.lowerTys]
  | cons t ts ih => simp [Build.lowerTys, ih]

/-- The operands for the elements of a tuple from position `i`. -/
def ItemsOk (o : BytesType) (sc : Scope) (ts : List Ty) (k : Nat) (n : Name) (i : Nat) (us : List Ty) (es : List Expr) : Prop :=
  ∀ c m, c.opts = o → c.scope = sc → Place c n (if k = 0 then 1 else 0) (.tuple ts) m →
    ∃ ms, operands c (denList es) = some ms ∧
      ∀ env args W s xs, m W s = .ok (.val (.list xs)) s → wtTuple env (Schema.Ty.substList args us) (xs.drop i) = true →
        SizeAgree o sc.arity env args (sizeOf (Val.list xs)) W →
        Sums W s ms (sizeTuple env (Schema.Ty.substList args us) (xs.drop i))

mutual
/-- The code for the size of a type. -/
theorem size_ops (o : BytesType) (sc : Scope) : ∀ (t : Simplify.Ty) (k : Nat) (n : Name), n.refs = k →
    refOk o sc.arity k (low sc t) = true → ∃ es, sizeOps o t n = some es ∧ es ≠ [] ∧ OpsOk o sc (low sc t) k n es
  | .prim p, k, n, hn, h => by
    simp only [low, Build.lowerTy, refOk] at h
    refine ⟨_, rfl, by simp, OpsOk.single ?_⟩
    intro c m hc hs hp
    unfold sizePrim
    by_cases hb : byValue p = true
    · rw [if_pos hb] at h ⊢
      exact call_sizeVal (hp.deref (by split <;> simp_all <;> omega) hb) hb
    · have hb : byValue p = false := by simpa using hb
      simp only [hb, Bool.false_eq_true, if_false] at h ⊢
      exact call_sizeRef (hp.behind (place_depth hn)) (by rw [hc]; exact refLeaf_accepts hb (by simpa using h)) (refLeaf_rep hb)
  | .vec t, k, n, hn, h => by
    simp only [low, Build.lowerTy, refOk] at h
    obtain ⟨es, he, hne, ho⟩ := size_ops o sc t 0 (.var "v") rfl h
    refine ⟨_, by simp only [sizeOps, he]; rfl, by simp, OpsOk.single ?_⟩
    intro c m hc hs hp
    obtain ⟨f, hf, hF⟩ := ho.clos hne hc hs
    exact call_sizeVec (hp.behind (place_depth hn)) hf hF
  | .hashMap a b, k, n, hn, h => by
    simp only [low, Build.lowerTy, refOk, Bool.and_eq_true] at h
    obtain ⟨es, he, hne, ho⟩ := size_ops o sc a 0 (.var "k") rfl h.1
    obtain ⟨es', he', hne', ho'⟩ := size_ops o sc b 0 (.var "v") rfl h.2
    refine ⟨_, by simp only [sizeOps, he, he']; rfl, by simp, OpsOk.single ?_⟩
    intro c m hc hs hp
    obtain ⟨f, hf, hF⟩ := ho.clos hne hc hs
    obtain ⟨g, hg, hG⟩ := ho'.clos hne' hc hs
    exact call_sizeMap (hp.behind (place_depth hn)) hf hg hF hG
  | .hashSet t, k, n, hn, h => by
    simp only [low, Build.lowerTy, refOk] at h
    obtain ⟨es, he, hne, ho⟩ := size_ops o sc t 0 (.var "v") rfl h
    refine ⟨_, by simp only [sizeOps, he]; rfl, by simp, OpsOk.single ?_⟩
    intro c m hc hs hp
    obtain ⟨f, hf, hF⟩ := ho.clos hne hc hs
    exact call_sizeSet (hp.behind (place_depth hn)) hf hF
  | .option t, k, n, hn, h => by
    simp only [low, Build.lowerTy, refOk, Bool.and_eq_true, decide_eq_true_eq] at h
    obtain ⟨es, he, hne, ho⟩ := size_ops o sc t 0 (.var "v") rfl h.2
    refine ⟨_, by simp only [sizeOps, he]; rfl, by simp, OpsOk.single ?_⟩
    intro c m hc hs hp
    obtain ⟨f, hf, hF⟩ := ho.clos hne hc hs
    refine call_sizeOption (e := n.method .asRef []) (m := m) ?_ hf hF
    intro exp
    have := hp.method (f := .asRef) (args := []) (u := .optRef (low sc t)) (m' := m)
      (fun e he exp => by simp [methodSem, he, strip_refN, denList, Build.lowerTy]) exp
    rw [this, hn, h.1]
    rfl
  | .nonZero t, k, n, hn, h => by
    simp only [low, Build.lowerTy] at h
    exact size_nz o sc t k n hn h
  | .tuple ts, k, n, hn, h => by
    simp only [low, Build.lowerTy, refOk, Bool.and_eq_true, lowerTys_length] at h
    obtain ⟨es, he, hl, ho⟩ := size_items o sc (Build.lowerTys sc.look sc.generics ts) ts k n 0 hn h.2 (by simp)
    have h2 : 2 ≤ ts.length := by
      have := h.1
      simp only [tupleArm, Bool.and_eq_true, decide_eq_true_eq] at this
      exact this.1
    refine ⟨es, by simp only [sizeOps, h.1, if_true, he], ?_, ?_⟩
    · intro e
      rw [e] at hl
      simp only [List.length_nil] at hl
      omega
    · intro c m hc hs hp
      obtain ⟨ms, h3, h4⟩ := ho c m hc hs hp
      refine ⟨ms, h3, ?_, ?_⟩
      · intro _ e he'
        rw [he'] at hl
        simp only [List.length_cons, List.length_nil] at hl
        omega
      · intro env args W s v hv hw ha
        obtain ⟨xs, rfl, hx⟩ := wt_tuple (ts := Schema.Ty.substList args (Build.lowerTys sc.look sc.generics ts)) hw
        have := h4 env args W s xs hv (by simpa using hx) ha
        simp only [List.drop_zero] at this
        have e : Codegen.size env ((low sc (.tuple ts)).subst args) (.list xs) =
            sizeTuple env (Schema.Ty.substList args (Build.lowerTys sc.look sc.generics ts)) xs := by
          rw [Codegen.size.eq_def]
          simp only [low, Build.lowerTy, Schema.Ty.subst, Schema.Ty.strip]
        rw [e]
        exact this
  | .array t l, k, n, hn, h => by
    simp only [low, Build.lowerTy, refOk] at h
    obtain ⟨es, he, hne, ho⟩ := size_ops o sc t 0 (.var "v") rfl h
    refine ⟨_, by simp only [sizeOps, he]; rfl, by simp, OpsOk.single ?_⟩
    intro c m hc hs hp
    obtain ⟨f, hf, hF⟩ := ho.clos hne hc hs
    exact call_sizeArray (hp.behind (place_depth hn)) hf hF
  | .external path name args, k, n, hn, h => by
    refine ⟨_, rfl, by simp, ?_⟩
    have hk : k ≤ 1 ∧ hasEnc o sc.arity (low sc (.external path name args)) = true := by
      simp only [low, Build.lowerTy] at h ⊢
      by_cases hg : path = [] ∧ name ∈ sc.generics
      · rw [if_pos hg] at h ⊢
        simp only [refOk, decide_eq_true_eq] at h
        exact ⟨h, by rw [hasEnc]⟩
      · rw [if_neg hg] at h ⊢
        simp only [refOk, Bool.and_eq_true, decide_eq_true_eq] at h
        exact h
    intro c m hc hs hp
    have hm := hp.method (f := .size) (args := []) (u := .usize) (m' := m.bind (onVal (traitSizeM (low sc (.external path name args)))))
      (fun e he exp => by simp [methodSem, he, strip_refN, denList, hc, hs, hk.2])
    refine ⟨[m.bind (onVal (traitSizeM (low sc (.external path name args))))], ?_, ?_, ?_⟩
    · have : k = 0 ∨ k = 1 := by omega
      rcases this with rfl | rfl
      · exact operand_usize (by simpa only [hn, refN] using hm)
      · exact operand_ref (by simpa only [hn, refN] using hm)
    · intro hk0 e he
      injection he with he _
      subst he
      exact ⟨_, rfl, by simpa only [hn, hk0, refN] using hm⟩
    · intro env args' W s v hv hw ha
      refine ⟨_, 0, ?_, rfl, rfl⟩
      rw [M.bind_ok hv]
      simp only [onVal, traitSizeM, ha _ v hk.2 hw (Nat.le_refl _)]
/-- Under `non_zero`. -/
theorem size_nz (o : BytesType) (sc : Scope) : ∀ (t : Simplify.Ty) (k : Nat) (n : Name), n.refs = k →
    refOk o sc.arity k (.nonZero (low sc t)) = true →
    ∃ es, sizeNonZero o t n = some es ∧ es ≠ [] ∧ OpsOk o sc (.nonZero (low sc t)) k n es
  | .prim p, k, n, hn, h => by
    simp only [low, Build.lowerTy, refOk, Bool.and_eq_true, Bool.or_eq_true, Bool.not_eq_true', decide_eq_true_eq] at h
    by_cases hi : isInt p = true
    · refine ⟨_, by simp only [sizeNonZero, hi, if_true]; rfl, by simp, OpsOk.single ?_⟩
      intro c m hc hs hp
      have hk : k = 0 := by simpa [hi] using h.2
      obtain ⟨m', h1, h2⟩ := call_sizeVal (o := o) (arity := sc.arity)
        (fun exp => Place.getInt hp (by rw [isInt_nonZero]; exact hi) (by omega) exp) (isInt_byValue hi)
      exact ⟨m', h1, h2.nz (nzPrim_arg h.1)⟩
    · have hi : isInt p = false := by simpa using hi
      obtain ⟨h1, h2, h3⟩ := nz_noInt h.1 hi
      refine ⟨[.call (.sizeRef (refLeaf o p)) [n.get.expr]],
        by simp only [sizeNonZero, hi, h1, if_true, Bool.false_eq_true, if_false, sizePrim, h2], by simp,
        OpsOk.single ?_⟩
      intro c m hc hs hp
      have hg := Place.get hp (fun q hq => by
        injection hq with hq
        subst hq
        have := isInt_nonZero (p := p)
        rw [hi] at this
        simpa using this)
      obtain ⟨m', h4, h5⟩ := call_sizeRef (o := o) (arity := sc.arity) (k := refLeaf o p) (hg.behind (by omega))
        (by rw [hc]; exact refLeaf_accepts h2 (.inr h3)) (refLeaf_rep h2)
      exact ⟨m', h4, h5.nz (nzPrim_arg h.1)⟩
  | .vec t, k, n, hn, h => by
    simp only [low, Build.lowerTy, refOk] at h
    obtain ⟨es, he, hne, ho⟩ := size_ops o sc t 0 (.var "v") rfl h
    refine ⟨_, by simp only [sizeNonZero, he]; rfl, by simp, OpsOk.single ?_⟩
    intro c m hc hs hp
    obtain ⟨f, hf, hF⟩ := ho.clos hne hc hs
    have hg := Place.get hp (fun q hq => nomatch hq)
    obtain ⟨m', h4, h5⟩ := call_sizeVec (hg.behind (by omega)) hf hF
    exact ⟨m', h4, h5.nz rfl⟩
  | .hashMap a b, k, n, hn, h => by
    simp only [low, Build.lowerTy, refOk, Bool.and_eq_true] at h
    obtain ⟨es, he, hne, ho⟩ := size_ops o sc a 0 (.var "k") rfl h.1
    obtain ⟨es', he', hne', ho'⟩ := size_ops o sc b 0 (.var "v") rfl h.2
    refine ⟨_, by simp only [sizeNonZero, he, he']; rfl, by simp, OpsOk.single ?_⟩
    intro c m hc hs hp
    obtain ⟨f, hf, hF⟩ := ho.clos hne hc hs
    obtain ⟨g, hg, hG⟩ := ho'.clos hne' hc hs
    have hg' := Place.get hp (fun q hq => nomatch hq)
    obtain ⟨m', h4, h5⟩ := call_sizeMap (hg'.behind (by omega)) hf hg hF hG
    exact ⟨m', h4, h5.nz rfl⟩
  | .hashSet t, k, n, hn, h => by
    simp only [low, Build.lowerTy, refOk] at h
    obtain ⟨es, he, hne, ho⟩ := size_ops o sc t 0 (.var "v") rfl h
    refine ⟨_, by simp only [sizeNonZero, he]; rfl, by simp, OpsOk.single ?_⟩
    intro c m hc hs hp
    obtain ⟨f, hf, hF⟩ := ho.clos hne hc hs
    have hg := Place.get hp (fun q hq => nomatch hq)
    obtain ⟨m', h4, h5⟩ := call_sizeSet (hg.behind (by omega)) hf hF
    exact ⟨m', h4, h5.nz rfl⟩
  | .option t, k, n, hn, h => by simp [low, Build.lowerTy, refOk] at h
  | .nonZero t, k, n, hn, h => by simp [low, Build.lowerTy, refOk] at h
  | .tuple ts, k, n, hn, h => by simp [low, Build.lowerTy, refOk] at h
  | .array t l, k, n, hn, h => by simp [low, Build.lowerTy, refOk] at h
  | .external path name args, k, n, hn, h => by
    simp only [low, Build.lowerTy] at h
    split at h <;> simp [refOk] at h
/-- The elements of a tuple. -/
theorem size_items (o : BytesType) (sc : Scope) (ts : List Ty) : ∀ (us : List Simplify.Ty) (k : Nat) (n : Name) (i : Nat),
    n.refs = k → refOks o sc.arity (k + 1) (Build.lowerTys sc.look sc.generics us) = true →
    ts.drop i = Build.lowerTys sc.look sc.generics us →
    ∃ es, sizeItems o us n i = some es ∧ us.length ≤ es.length ∧
      ItemsOk o sc ts k n i (Build.lowerTys sc.look sc.generics us) es
  | [], k, n, i, hn, h, hd => by
    refine ⟨[], rfl, Nat.le_refl _, ?_⟩
    intro c m hc hs hp
    refine ⟨[], rfl, ?_⟩
    intro env args W s xs hv hw ha
    simp only [Build.lowerTys, Schema.Ty.substList, sizeTuple]
    rfl
  | u :: us, k, n, i, hn, h, hd => by
    simp only [Build.lowerTys, refOks, Bool.and_eq_true] at h hd
    obtain ⟨es, he, hne, ho⟩ := size_ops o sc u (k + 1) (n.item i) (by simp [Name.item, hn]) h.1
    have hd' : ts.drop (i + 1) = Build.lowerTys sc.look sc.generics us := by
      rw [← List.drop_drop, hd]
      rfl
    obtain ⟨es', he', hl, hr⟩ := size_items o sc ts us k n (i + 1) hn h.2 hd'
    refine ⟨es ++ es', by simp only [sizeItems, he, he']; rfl, ?_, ?_⟩
    · have : 0 < es.length := List.length_pos_iff.2 hne
      simp only [List.length_cons, List.length_append]
      omega
    · intro c m hc hs hp
      have hi : ts[i]? = some (low sc u) := by
        have := congrArg (fun l => l[0]?) hd
        simpa using this
      obtain ⟨ms, h1, _, h3⟩ := ho c _ hc hs (hp.item hi)
      obtain ⟨ms', h4, h5⟩ := hr c m hc hs hp
      refine ⟨ms ++ ms', operands_append h1 h4, ?_⟩
      intro env args W s xs hv hw ha
      cases hx : xs.drop i with
      | nil =>
        rw [hx] at hw
        simp [Build.lowerTys, Schema.Ty.substList, wtTuple] at hw
      | cons x rest =>
        rw [hx] at hw
        simp only [Build.lowerTys, Schema.Ty.substList, wtTuple, Bool.and_eq_true] at hw
        have hxi : xs[i]? = some x := by
          have := congrArg (fun l => l[0]?) hx
          simpa using this
        have hx' : xs.drop (i + 1) = rest := by
          rw [← List.drop_drop, hx]
          rfl
        have hmem : x ∈ xs := List.mem_of_getElem? hxi
        simp only [Build.lowerTys, Schema.Ty.substList, sizeTuple]
        refine Sums.append (h3 env args W s x ?_ hw.1 (ha.mono (mem_size hmem))) ?_
        · rw [M.bind_ok hv]
          simp only [onList, itemM, hxi]
          rfl
        · have := h5 env args W s xs hv (by rw [hx']; exact hw.2) ha
          rwa [hx'] at this
end

end Mabo.Rust
