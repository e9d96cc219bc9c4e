import Verif.Rust.SizeSem
import Verif.SizeLemmas
/-!
The generated encoders: the code of `encodeTy` compiles and writes `Codegen.enc`.
-/
namespace Mabo.Rust
open Mabo.Buf Mabo.Codegen
open Mabo.Schema (Prim Ty Val wt wtList wtEntries wtTuple Env)

/-- The traits write the bytes of the model, for values up to a bound. -/
def EncAgree (o : BytesType) (arity : List String → Option Nat) (env : Env) (args : List Ty) (B : Nat) (W : World) : Prop :=
  ∀ t v, hasEnc o arity t = true → wt env (t.subst args) v = true → sizeOf v ≤ B →
    W.enc t v = some (Codegen.enc env false (t.subst args) v)

/-- Both traits. -/
structure Agrees (o : BytesType) (arity : List String → Option Nat) (env : Env) (args : List Ty) (B : Nat) (W : World) :
    Prop where
  size : SizeAgree o arity env args B W
  enc : EncAgree o arity env args B W

theorem Agrees.mono {o : BytesType} {arity : List String → Option Nat} {env : Env} {args : List Ty} {B B' : Nat} {W : World}
    (h : Agrees o arity env args B W) (hB : B' ≤ B) : Agrees o arity env args B' W :=
  ⟨h.size.mono hB, fun t v ht hv hs => h.enc t v ht hv (Nat.le_trans hs hB)⟩

/-- An execution that yields the value whatever has been written before. -/
def Yields (m : M) (W : World) (s : St) (v : Val) : Prop :=
  ∀ out, m W { s with output := out } = .ok (.val v) { s with output := out }

theorem Yields.here {m : M} {W : World} {s : St} {v : Val} (h : Yields m W s v) : m W s = .ok (.val v) s := h s.output

theorem Yields.write {m : M} {W : World} {s : St} {v : Val} (h : Yields m W s v) (b : Bytes) : Yields m W (s.write b) v :=
  fun out => h out

/-- An execution that writes the value that another one yields. -/
def Encodes (o : BytesType) (arity : List String → Option Nat) (root : Bool) (T : Ty) (m m' : M) : Prop :=
  ∀ env args W s v, Yields m W s v → wt env (T.subst args) v = true → Agrees o arity env args (sizeOf v) W →
    m' W s = .ok .unit (s.write (Codegen.enc env root (T.subst args) v))

/-- A function that writes values. -/
def EncFn (o : BytesType) (arity : List String → Option Nat) (root : Bool) (T : Ty) (f : List RVal → M) : Prop :=
  ∀ env args W s v, wt env (T.subst args) v = true → Agrees o arity env args (sizeOf v) W →
    f [.unit, .val v] W s = .ok .unit (s.write (Codegen.enc env root (T.subst args) v))

/-- Statements that are executed before whatever follows. -/
def Runs (c : Ctx) (ss : List Stmt) (m : M) : Prop :=
  ∀ rest exp, seqSem (denStmts (ss ++ rest)) c exp =
    (seqSem (denStmts rest) c exp).map fun p => (p.1, m.bind fun _ => p.2)

theorem Runs.nil (c : Ctx) : Runs c [] (pureM .unit) := by
  intro rest exp
  simp only [List.nil_append]
  cases seqSem (denStmts rest) c exp <;> rfl

theorem Runs.semi {c : Ctx} {e : Expr} {t : RType} {m : M} (h : (den e).plain c none = some (t, m)) :
    Runs c [.semi e] m := by
  intro rest exp
  simp only [List.singleton_append, denStmts, denStmt, seqSem, h]
  cases seqSem (denStmts rest) c exp <;> rfl

theorem Runs.empty (c : Ctx) : Runs c [.empty] (pureM .unit) := by
  intro rest exp
  simp only [List.singleton_append, denStmts, denStmt, seqSem]
  cases seqSem (denStmts rest) c exp <;> rfl

theorem Runs.append {c : Ctx} {ss ss' : List Stmt} {m m' : M} (h : Runs c ss m) (h' : Runs c ss' m') :
    Runs c (ss ++ ss') (m.bind fun _ => m') := by
  intro rest exp
  rw [List.append_assoc, h, h']
  cases seqSem (denStmts rest) c exp with
  | none => rfl
  | some p =>
    simp only [Option.map_some]
    rw [M.bind_assoc]

/-- The whole body of a function. -/
theorem Runs.all {c : Ctx} {ss : List Stmt} {m : M} (h : Runs c ss m) (exp : Option RType) :
    seqSem (denStmts ss) c exp = some (.unit, m.bind fun _ => pureM .unit) := by
  have := h [] exp
  rw [List.append_nil] at this
  rw [this]
  rfl

/-- The writer is visible. -/
def Writes (c : Ctx) : Prop := ∃ b, c.find "w" = some (.writer, b)

theorem Writes.arg {c : Ctx} (h : Writes c) : (den w).writer c = some () := by
  obtain ⟨b, h⟩ := h
  simp [w, den, Arg.writer, Arg.expr, varSem, h]

theorem write_write (s : St) (a b : Bytes) : (s.write a).write b = s.write (a ++ b) := by
  simp [St.write, List.append_assoc]

theorem write_nil (s : St) : s.write [] = s := by simp [St.write]

theorem writeM_ok (b : Bytes) (W : World) (s : St) : writeM b W s = .ok .unit (s.write b) := rfl

/-- The statements write what the name stands for. -/
def StmtsOk (o : BytesType) (sc : Scope) (root : Bool) (T : Ty) (k : Nat) (n : Name) (ss : List Stmt) : Prop :=
  ∀ c m, c.opts = o → c.scope = sc → Writes c → Place c n (if k = 0 then 1 else 0) T m →
    ∃ m', Runs c ss m' ∧ Encodes o sc.arity root T m m'

/-- One expression. -/
theorem StmtsOk.single {o : BytesType} {sc : Scope} {root : Bool} {T : Ty} {k : Nat} {n : Name} {e : Expr}
    (h : ∀ c m, c.opts = o → c.scope = sc → Writes c → Place c n (if k = 0 then 1 else 0) T m →
      ∃ t m', (∀ exp, (den e).plain c exp = some (t, m')) ∧ Encodes o sc.arity root T m m') :
    StmtsOk o sc root T k n [.semi e] := by
  intro c m hc hs hw hp
  obtain ⟨t, m', he, hm⟩ := h c m hc hs hw hp
  exact ⟨m', Runs.semi (he none), hm⟩

theorem find_filter {x : String} {t : RType} {b : Bool} (ht : t.isPort = false) : ∀ {l : List (String × RType × Bool)},
    l.lookup x = some (t, b) → (l.filter fun v => !v.2.1.isPort).lookup x = some (t, b)
  | (y, u) :: l, h => by
    rw [List.lookup_cons] at h
    by_cases hy : (x == y) = true
    · rw [hy] at h
      injection h with h
      subst h
      rw [List.filter_cons_of_pos (by simp [ht]), List.lookup_cons, hy]
    · rw [Bool.not_eq_true] at hy
      rw [hy] at h
      have ih := find_filter ht h
      by_cases hu : u.1.isPort = true
      · rw [List.filter_cons_of_neg (by simp [hu])]
        exact ih
      · rw [List.filter_cons_of_pos (by simpa using hu), List.lookup_cons, hy]
        exact ih

/-- A closure around the statements. -/
theorem StmtsOk.clos {o : BytesType} {sc : Scope} {root : Bool} {T : Ty} {x : String} {ss : List Stmt} (hx : x ≠ "w")
    (h : StmtsOk o sc root T 0 (.var x) ss) {c : Ctx} (hc : c.opts = o) (hs : c.scope = sc) :
    ∃ f, (den (.closure ["w", x] ss)).fn c [.writer, .ref (.own T)] .unit = some f ∧ EncFn o sc.arity root T f := by
  have hx' : ("w" == x) = false := by simpa using fun h => hx h.symm
  have hp : Place (c.clos ["w", x] [.writer, .ref (.own T)] .unit) (.var x) 1 T _ :=
    Place.var (b := false) (by simp [Ctx.clos, Ctx.find, typeAll])
  have hw : Writes (c.clos ["w", x] [.writer, .ref (.own T)] .unit) :=
    ⟨false, by simp [Ctx.clos, Ctx.find, typeAll, List.lookup, hx']⟩
  obtain ⟨m', hr, hm⟩ := h (c.clos ["w", x] [.writer, .ref (.own T)] .unit) _ hc hs hw hp
  refine ⟨_, fn_eq rfl (by simpa using fun h => hx h.symm) (check_eq (hr.all _) rfl), ?_⟩
  intro env args W s v hwt ha
  have h1 := hm env args W { s with vars := bindAll ["w", x] [.unit, .val v] ++ s.vars } v
    (fun out => by simp [bindAll]) hwt ha
  have h2 := M.bind_ok (k := fun _ => pureM .unit) h1
  have := closM_ok (h2.trans rfl)
  exact this

theorem eachM_ok {f : Val → M} {g : Val → Bytes} {W : World} : ∀ {xs : List Val} {s : St},
    (∀ x, x ∈ xs → ∀ s : St, f x W s = .ok .unit (s.write (g x))) → eachM f xs W s = .ok .unit (s.write (encElems g xs))
  | [], s, _ => by simp [eachM, encElems, pureM, write_nil]
  | x :: xs, s, h => by
    rw [eachM, M.bind_ok (h x (List.mem_cons_self ..) s), eachM_ok fun y hy => h y (List.mem_cons_of_mem _ hy), write_write]
    rfl

/-- All elements. -/
theorem EncFn.list {o : BytesType} {arity : List String → Option Nat} {T : Ty} {f : List RVal → M} (hf : EncFn o arity false T f)
    {env : Env} {args : List Ty} {W : World} {s : St} {xs : List Val} (hw : wtList env (T.subst args) xs = true)
    (ha : Agrees o arity env args (sizeOf (Val.list xs)) W) :
    eachM (fun v => f [.unit, .val v]) xs W s = .ok .unit (s.write (encList env (T.subst args) xs)) := by
  rw [encList_eq]
  exact eachM_ok fun x hx s => hf env args W s x (wtList_mem hw x hx) (ha.mono (mem_size hx))

theorem encEntries_sum (env : Env) (k w : Ty) (xs : List Val) :
    encEntries env k w xs = encElems (fun x =>
      match x with
      | .pair a b => Codegen.enc env false k a ++ Codegen.enc env false w b
      | _ => []) xs := by
  induction xs with
  | nil => simp [encEntries, encElems]
  | cons x xs ih =>
    rw [encElems, ← ih]
    cases x <;> simp [encEntries]

/-- All entries. -/
theorem EncFn.entries {o : BytesType} {arity : List String → Option Nat} {K V : Ty} {f g : List RVal → M}
    (hf : EncFn o arity false K f) (hg : EncFn o arity false V g)
    {env : Env} {args : List Ty} {W : World} {s : St} {xs : List Val}
    (hw : wtEntries env (K.subst args) (V.subst args) xs = true)
    (ha : Agrees o arity env args (sizeOf (Val.list xs)) W) :
    eachM (onPair fun a b => (f [.unit, .val a]).bind fun _ => g [.unit, .val b]) xs W s =
      .ok .unit (s.write (encEntries env (K.subst args) (V.subst args) xs)) := by
  rw [encEntries_sum]
  refine eachM_ok fun x hx s => ?_
  obtain ⟨a, b, rfl, h1, h2⟩ := wtEntries_mem hw x hx
  have h3 := mem_size hx
  simp only [Val.pair.sizeOf_spec] at h3
  simp only [onPair]
  rw [M.bind_ok (hf env args W s a h1 (ha.mono (by omega))), hg env args W _ b h2 (ha.mono (by omega)), write_write]

/-! ### Calls -/

theorem call_encVal {o : BytesType} {arity : List String → Option Nat} {root : Bool} {c : Ctx} {e : Expr} {p : Prim} {m : M}
    (hw : Writes c) (h : ∀ exp, (den e).plain c exp = some (.own (.prim p), m)) (hp : byValue p = true) :
    ∃ t m', (∀ exp, (den (.call (.encVal p) [w, e])).plain c exp = some (t, m')) ∧ Encodes o arity root (.prim p) m m' := by
  refine ⟨.unit, m.bind (onVal fun v => writeM (encRep p.rep v)), ?_, ?_⟩
  · intro exp
    have hc : (den e).plain.check c (.own (.prim p)) = some m := check_eq (h _) (by simp [RType.same])
    simp [den, denList, Arg.expr, callSem, hc, hp, hw.arg]
  · intro env args W s v hv hw ha
    rw [M.bind_ok hv.here]
    simp only [onVal, writeM, Schema.Ty.subst]
    rw [Codegen.enc.eq_def]
    simp only [Schema.Ty.strip]

theorem call_encRef {o : BytesType} {arity : List String → Option Nat} {root : Bool} {c : Ctx} {e : Expr} {p : Prim} {m : M}
    {k : RefLeaf} (hw : Writes c)
    (h : (den e).behind c = some (.prim p, m)) (hk : k.accepts c.opts (.prim p) = true) (hr : k.prim.rep = p.rep) :
    ∃ t m', (∀ exp, (den (.call (.encRef k) [w, e])).plain c exp = some (t, m')) ∧ Encodes o arity root (.prim p) m m' := by
  refine ⟨.unit, m.bind (onVal fun v => writeM (encRep k.prim.rep v)), ?_, ?_⟩
  · intro exp
    simp [den, denList, Arg.expr, callSem, h, hk, hw.arg]
  · intro env args W s v hv hw ha
    rw [M.bind_ok hv.here]
    simp only [onVal, writeM, Schema.Ty.subst, hr]
    rw [Codegen.enc.eq_def]
    simp only [Schema.Ty.strip]

theorem call_encVec {o : BytesType} {arity : List String → Option Nat} {root : Bool} {c : Ctx} {e cl cl' : Expr} {T : Ty}
    {m : M} {f g : List RVal → M} (hw : Writes c) (h : (den e).behind c = some (.vec T, m))
    (hf : (den cl).fn c [.ref (.own T)] .usize = some f) (hF : SizeFn o arity T f)
    (hg : (den cl').fn c [.writer, .ref (.own T)] .unit = some g) (hG : EncFn o arity false T g) :
    ∃ t m', (∀ exp, (den (.call .encVec [w, e, cl, cl'])).plain c exp = some (t, m')) ∧ Encodes o arity root (.vec T) m m' := by
  refine ⟨_, _, fun exp => by simp [den, denList, Arg.expr, callSem, h, hf, hg, hw.arg]; exact ⟨rfl, rfl⟩, ?_⟩
  intro env args W s v hv hw ha
  obtain ⟨xs, rfl, hx⟩ := wt_vec (t := T.subst args) hw
  rw [M.bind_ok hv.here]
  simp only [onList]
  rw [M.bind_ok (hF.list hx ha.size)]
  simp only [onUsize]
  rw [M.bind_ok (writeM_ok _ W s), hG.list hx ha, write_write]
  show _ = Out.ok .unit (s.write (Codegen.enc env root (.vec (T.subst args)) (.list xs)))
  rw [Codegen.enc.eq_def]
  simp only [Schema.Ty.strip]

theorem call_encHashSet {o : BytesType} {arity : List String → Option Nat} {root : Bool} {c : Ctx} {e cl cl' : Expr} {T : Ty}
    {m : M} {f g : List RVal → M} (hw : Writes c) (h : (den e).behind c = some (.hashSet T, m))
    (hf : (den cl).fn c [.ref (.own T)] .usize = some f) (hF : SizeFn o arity T f)
    (hg : (den cl').fn c [.writer, .ref (.own T)] .unit = some g) (hG : EncFn o arity false T g) :
    ∃ t m', (∀ exp, (den (.call .encHashSet [w, e, cl, cl'])).plain c exp = some (t, m')) ∧ Encodes o arity root (.hashSet T) m m' := by
  refine ⟨_, _, fun exp => by simp [den, denList, Arg.expr, callSem, h, hf, hg, hw.arg]; exact ⟨rfl, rfl⟩, ?_⟩
  intro env args W s v hv hw ha
  obtain ⟨xs, rfl, hx⟩ := wt_set (t := T.subst args) hw
  rw [M.bind_ok hv.here]
  simp only [onList]
  rw [M.bind_ok (hF.list hx ha.size)]
  simp only [onUsize]
  rw [M.bind_ok (writeM_ok _ W s), hG.list hx ha, write_write]
  show _ = Out.ok .unit (s.write (Codegen.enc env root (.hashSet (T.subst args)) (.list xs)))
  rw [Codegen.enc.eq_def]
  simp only [Schema.Ty.strip]

theorem call_encArray {o : BytesType} {arity : List String → Option Nat} {root : Bool} {c : Ctx} {e cl cl' : Expr} {T : Ty} {n : Nat}
    {m : M} {f g : List RVal → M} (hw : Writes c) (h : (den e).behind c = some (.array T n, m))
    (hf : (den cl).fn c [.ref (.own T)] .usize = some f) (hF : SizeFn o arity T f)
    (hg : (den cl').fn c [.writer, .ref (.own T)] .unit = some g) (hG : EncFn o arity false T g) :
    ∃ t m', (∀ exp, (den (.call .encArray [w, e, cl, cl'])).plain c exp = some (t, m')) ∧ Encodes o arity root (.array T n) m m' := by
  refine ⟨_, _, fun exp => by simp [den, denList, Arg.expr, callSem, h, hf, hg, hw.arg]; exact ⟨rfl, rfl⟩, ?_⟩
  intro env args W s v hv hw ha
  obtain ⟨xs, rfl, _, hx⟩ := wt_array (t := T.subst args) hw
  rw [M.bind_ok hv.here]
  simp only [onList]
  rw [M.bind_ok (hF.list hx ha.size)]
  simp only [onUsize]
  rw [M.bind_ok (writeM_ok _ W s), hG.list hx ha, write_write]
  show _ = Out.ok .unit (s.write (Codegen.enc env root (.array (T.subst args) n) (.list xs)))
  rw [Codegen.enc.eq_def]
  simp only [Schema.Ty.strip]

theorem call_encMap {o : BytesType} {arity : List String → Option Nat} {root : Bool} {c : Ctx} {e ck cv ek ev : Expr} {K V : Ty}
    {m : M} {f f' g g' : List RVal → M} (hw : Writes c) (h : (den e).behind c = some (.hashMap K V, m))
    (hf : (den ck).fn c [.ref (.own K)] .usize = some f) (hF : SizeFn o arity K f)
    (hf' : (den cv).fn c [.ref (.own V)] .usize = some f') (hF' : SizeFn o arity V f')
    (hg : (den ek).fn c [.writer, .ref (.own K)] .unit = some g) (hG : EncFn o arity false K g)
    (hg' : (den ev).fn c [.writer, .ref (.own V)] .unit = some g') (hG' : EncFn o arity false V g') :
    ∃ t m', (∀ exp, (den (.call .encHashMap [w, e, ck, cv, ek, ev])).plain c exp = some (t, m')) ∧
      Encodes o arity root (.hashMap K V) m m' := by
  refine ⟨_, _, fun exp => by simp [den, denList, Arg.expr, callSem, h, hf, hf', hg, hg', hw.arg]; exact ⟨rfl, rfl⟩, ?_⟩
  intro env args W s v hv hw ha
  obtain ⟨xs, rfl, hx⟩ := wt_map (k := K.subst args) (w := V.subst args) hw
  rw [M.bind_ok hv.here]
  simp only [onList]
  rw [M.bind_ok (hF.entries hF' hx ha.size)]
  simp only [onUsize]
  rw [M.bind_ok (writeM_ok _ W s), hG.entries hG' hx ha, write_write]
  show _ = Out.ok .unit (s.write (Codegen.enc env root (.hashMap (K.subst args) (V.subst args)) (.list xs)))
  rw [Codegen.enc.eq_def]
  simp only [Schema.Ty.strip]

theorem call_encOption {o : BytesType} {arity : List String → Option Nat} {root : Bool} {c : Ctx} {e cl : Expr} {T : Ty}
    {m : M} {g : List RVal → M} (hw : Writes c) (h : (den e).behind c = some (.option T, m))
    (hg : (den cl).fn c [.writer, .ref (.own T)] .unit = some g) (hG : EncFn o arity false T g) :
    ∃ t m', (∀ exp, (den (.call .encOption [w, e, cl])).plain c exp = some (t, m')) ∧
      Encodes o arity root (.option T) m m' := by
  refine ⟨_, _, fun exp => by simp [den, denList, Arg.expr, callSem, h, hg, hw.arg]; exact ⟨rfl, rfl⟩, ?_⟩
  intro env args W s v hv hw ha
  rw [M.bind_ok hv.here]
  show _ = Out.ok .unit (s.write (Codegen.enc env root (.option (T.subst args)) v))
  rcases wt_option_cases (t := T.subst args) hw with rfl | ⟨x, rfl, hx⟩
  · simp only [onVal, writeM]
    rw [Codegen.enc.eq_def]
    simp only [Schema.Ty.strip]
  · simp only [onVal]
    rw [M.bind_ok (writeM_ok _ W s), hG env args W _ x hx (ha.mono (by simp only [Val.some.sizeOf_spec]; omega)), write_write]
    rw [Codegen.enc.eq_def env root (.option _)]
    simp only [Schema.Ty.strip]
    rfl

theorem enc_nz_inner {env : Env} {root : Bool} {T : Ty} {v : Val} (hT : T.nzArg = true) :
    Codegen.enc env root (.nonZero T) v = Codegen.enc env root T v := by
  rw [Codegen.enc.eq_def, Codegen.enc.eq_def env root T]
  cases T <;> simp only [Schema.Ty.nzArg, Schema.Ty.strip, Bool.false_eq_true] at hT ⊢

theorem Encodes.nz {o : BytesType} {arity : List String → Option Nat} {root : Bool} {T : Ty} {m m' : M}
    (h : Encodes o arity root T m m') (hT : T.nzArg = true) : Encodes o arity root (.nonZero T) m m' := by
  intro env args W s v hv hw ha
  have hT' := nzArg_subst hT args
  have := h env args W s v hv (wt_nz_inner hT' hw) ha
  rw [this]
  exact congrArg (fun n => Out.ok .unit (s.write n)) (enc_nz_inner hT').symm

/-! ### All types -/

/-- The statements for the elements of a tuple from position `i`. -/
def EncItemsOk (o : BytesType) (sc : Scope) (ts : List Ty) (k : Nat) (n : Name) (i : Nat) (us : List Ty) (ss : List Stmt) : Prop :=
  ∀ c m, c.opts = o → c.scope = sc → Writes c → Place c n (if k = 0 then 1 else 0) (.tuple ts) m →
    ∃ m', Runs c ss m' ∧
      ∀ env args W s xs, Yields m W s (.list xs) → wtTuple env (Schema.Ty.substList args us) (xs.drop i) = true →
        Agrees o sc.arity env args (sizeOf (Val.list xs)) W →
        m' W s = .ok .unit (s.write (Codegen.encTuple env (Schema.Ty.substList args us) (xs.drop i)))

/-- The code for the size of an element as a closure. -/
theorem size_clos {o : BytesType} {sc : Scope} {t : Simplify.Ty} (h : refOk o sc.arity 0 (low sc t) = true) (x : String) :
    ∃ e, sizeTy o t (.var x) = some e ∧ ∀ c : Ctx, c.opts = o → c.scope = sc →
      ∃ f, (den (.closure [x] [.tail e])).fn c [.ref (.own (low sc t))] .usize = some f ∧ SizeFn o sc.arity (low sc t) f := by
  obtain ⟨es, he, hne, ho⟩ := size_ops o sc t 0 (.var x) rfl h
  exact ⟨Rust.add es, by rw [sizeTy, he]; rfl, fun c hc hs => ho.clos hne hc hs⟩

mutual
/-- The code that writes a value of a type, inside of others. -/
theorem encode_ty (o : BytesType) (sc : Scope) : ∀ (t : Simplify.Ty) (k : Nat) (n : Name), n.refs = k →
    refOk o sc.arity k (low sc t) = true → ∃ ss, encodeTy o false t n = some ss ∧ StmtsOk o sc false (low sc t) k n ss
  | .prim p, k, n, hn, h => by
    simp only [low, Build.lowerTy, refOk] at h
    refine ⟨_, rfl, StmtsOk.single ?_⟩
    intro c m hc hs hw hp
    unfold encodePrim
    by_cases hb : byValue p = true
    · rw [if_pos hb] at h ⊢
      exact call_encVal hw (hp.deref (by split <;> simp_all <;> omega) hb) hb
    · have hb : byValue p = false := by simpa using hb
      simp only [hb, Bool.false_eq_true, if_false] at h ⊢
      exact call_encRef hw (hp.behind (place_depth hn)) (by rw [hc]; exact refLeaf_accepts hb (by simpa using h)) (refLeaf_rep hb)
  | .vec t, k, n, hn, h => by
    simp only [low, Build.lowerTy, refOk] at h
    obtain ⟨e, he, hF⟩ := size_clos h "v"
    obtain ⟨ss, hss, ho⟩ := encode_ty o sc t 0 (.var "v") rfl h
    refine ⟨_, by simp only [encodeTy, he, hss]; rfl, StmtsOk.single ?_⟩
    intro c m hc hs hw hp
    obtain ⟨f, hf, hF⟩ := hF c hc hs
    obtain ⟨g, hg, hG⟩ := ho.clos (by decide) hc hs
    exact call_encVec hw (hp.behind (place_depth hn)) hf hF hg hG
  | .hashMap a b, k, n, hn, h => by
    simp only [low, Build.lowerTy, refOk, Bool.and_eq_true] at h
    obtain ⟨e, he, hF⟩ := size_clos h.1 "k"
    obtain ⟨e', he', hF'⟩ := size_clos h.2 "v"
    obtain ⟨ss, hss, ho⟩ := encode_ty o sc a 0 (.var "k") rfl h.1
    obtain ⟨ss', hss', ho'⟩ := encode_ty o sc b 0 (.var "v") rfl h.2
    refine ⟨_, by simp only [encodeTy, he, he', hss, hss']; rfl, StmtsOk.single ?_⟩
    intro c m hc hs hw hp
    obtain ⟨f, hf, hF⟩ := hF c hc hs
    obtain ⟨f', hf', hF'⟩ := hF' c hc hs
    obtain ⟨g, hg, hG⟩ := ho.clos (by decide) hc hs
    obtain ⟨g', hg', hG'⟩ := ho'.clos (by decide) hc hs
    exact call_encMap hw (hp.behind (place_depth hn)) hf hF hf' hF' hg hG hg' hG'
  | .hashSet t, k, n, hn, h => by
    simp only [low, Build.lowerTy, refOk] at h
    obtain ⟨e, he, hF⟩ := size_clos h "v"
    obtain ⟨ss, hss, ho⟩ := encode_ty o sc t 0 (.var "v") rfl h
    refine ⟨_, by simp only [encodeTy, he, hss]; rfl, StmtsOk.single ?_⟩
    intro c m hc hs hw hp
    obtain ⟨f, hf, hF⟩ := hF c hc hs
    obtain ⟨g, hg, hG⟩ := ho.clos (by decide) hc hs
    exact call_encHashSet hw (hp.behind (place_depth hn)) hf hF hg hG
  | .option t, k, n, hn, h => by
    simp only [low, Build.lowerTy, refOk, Bool.and_eq_true, decide_eq_true_eq] at h
    obtain ⟨ss, hss, ho⟩ := encode_ty o sc t 0 (.var "v") rfl h.2
    refine ⟨_, by simp only [encodeTy, hss]; rfl, StmtsOk.single ?_⟩
    intro c m hc hs hw hp
    obtain ⟨g, hg, hG⟩ := ho.clos (by decide) hc hs
    exact call_encOption hw (hp.behind (place_depth hn)) hg hG
  | .nonZero t, k, n, hn, h => by
    simp only [low, Build.lowerTy] at h
    exact encode_nz o sc t k n hn h
  | .tuple ts, k, n, hn, h => by
    simp only [low, Build.lowerTy, refOk, Bool.and_eq_true, lowerTys_length] at h
    obtain ⟨ss, hss, ho⟩ := encode_items o sc (Build.lowerTys sc.look sc.generics ts) ts k n 0 hn h.2 (by simp)
    refine ⟨ss ++ [.empty], by simp only [encodeTy, h.1, if_true, hss]; rfl, ?_⟩
    intro c m hc hs hw hp
    obtain ⟨m', hr, hm⟩ := ho c m hc hs hw hp
    refine ⟨_, hr.append (Runs.empty c), ?_⟩
    intro env args W s v hv hwt ha
    obtain ⟨xs, rfl, hx⟩ := wt_tuple (ts := Schema.Ty.substList args (Build.lowerTys sc.look sc.generics ts)) hwt
    have := hm env args W s xs hv (by simpa using hx) ha
    rw [M.bind_ok this]
    simp only [List.drop_zero, pureM]
    rw [Codegen.enc.eq_def]
    simp only [low, Build.lowerTy, Schema.Ty.subst, Schema.Ty.strip]
  | .array t l, k, n, hn, h => by
    simp only [low, Build.lowerTy, refOk] at h
    obtain ⟨e, he, hF⟩ := size_clos h "v"
    obtain ⟨ss, hss, ho⟩ := encode_ty o sc t 0 (.var "v") rfl h
    refine ⟨_, by simp only [encodeTy, he, hss]; rfl, StmtsOk.single ?_⟩
    intro c m hc hs hw hp
    obtain ⟨f, hf, hF⟩ := hF c hc hs
    obtain ⟨g, hg, hG⟩ := ho.clos (by decide) hc hs
    exact call_encArray hw (hp.behind (place_depth hn)) hf hF hg hG
  | .external path name args, k, n, hn, h => by
    refine ⟨_, rfl, StmtsOk.single ?_⟩
    have hk : hasEnc o sc.arity (low sc (.external path name args)) = true := by
      simp only [low, Build.lowerTy] at h ⊢
      by_cases hg : path = [] ∧ name ∈ sc.generics
      · rw [if_pos hg] at h ⊢
        rw [hasEnc]
      · rw [if_neg hg] at h ⊢
        simp only [refOk, Bool.and_eq_true, decide_eq_true_eq] at h
        exact h.2
    intro c m hc hs hw hp
    refine ⟨_, _, hp.method (f := .encode) (args := [w]) (u := .unit)
      (m' := m.bind (onVal (traitEncM (low sc (.external path name args)))))
      (fun e he exp => by simp [methodSem, he, strip_refN, denList, hc, hs, hk, hw.arg]), ?_⟩
    intro env args' W s v hv hwt ha
    rw [M.bind_ok hv.here]
    simp only [onVal, traitEncM, ha.enc _ v hk hwt (Nat.le_refl _)]
/-- Under `non_zero`. -/
theorem encode_nz (o : BytesType) (sc : Scope) : ∀ (t : Simplify.Ty) (k : Nat) (n : Name), n.refs = k →
    refOk o sc.arity k (.nonZero (low sc t)) = true →
    ∃ ss, encodeNonZero o t n = some ss ∧ StmtsOk o sc false (.nonZero (low sc t)) k n ss
  | .prim p, k, n, hn, h => by
    simp only [low, Build.lowerTy, refOk, Bool.and_eq_true, Bool.or_eq_true, Bool.not_eq_true', decide_eq_true_eq] at h
    by_cases hi : isInt p = true
    · refine ⟨_, by simp only [encodeNonZero, hi, if_true]; rfl, StmtsOk.single ?_⟩
      intro c m hc hs hw hp
      have hk : k = 0 := by simpa [hi] using h.2
      obtain ⟨t, m', h1, h2⟩ := call_encVal (o := o) (arity := sc.arity) (root := false) hw
        (fun exp => Place.getInt hp (by rw [isInt_nonZero]; exact hi) (by omega) exp) (isInt_byValue hi)
      exact ⟨t, m', h1, h2.nz (nzPrim_arg h.1)⟩
    · have hi : isInt p = false := by simpa using hi
      obtain ⟨h1, h2, h3⟩ := nz_noInt h.1 hi
      refine ⟨[.semi (.call (.encRef (refLeaf o p)) [w, n.get.expr])],
        by simp only [encodeNonZero, hi, h1, if_true, Bool.false_eq_true, if_false, encodePrim, h2], StmtsOk.single ?_⟩
      intro c m hc hs hw hp
      have hg := Place.get hp (fun q hq => by
        injection hq with hq
        subst hq
        have := isInt_nonZero (p := p)
        rw [hi] at this
        simpa using this)
      obtain ⟨t, m', h4, h5⟩ := call_encRef (o := o) (arity := sc.arity) (root := false) (k := refLeaf o p) hw (hg.behind (by omega))
        (by rw [hc]; exact refLeaf_accepts h2 (.inr h3)) (refLeaf_rep h2)
      exact ⟨t, m', h4, h5.nz (nzPrim_arg h.1)⟩
  | .vec t, k, n, hn, h => by
    simp only [low, Build.lowerTy, refOk] at h
    obtain ⟨e, he, hF⟩ := size_clos h "v"
    obtain ⟨ss, hss, ho⟩ := encode_ty o sc t 0 (.var "v") rfl h
    refine ⟨_, by simp only [encodeNonZero, he, hss]; rfl, StmtsOk.single ?_⟩
    intro c m hc hs hw hp
    obtain ⟨f, hf, hF⟩ := hF c hc hs
    obtain ⟨g, hg, hG⟩ := ho.clos (by decide) hc hs
    have hq := Place.get hp (fun q hq => nomatch hq)
    obtain ⟨u, m', h4, h5⟩ := call_encVec hw (hq.behind (by omega)) hf hF hg hG
    exact ⟨u, m', h4, h5.nz rfl⟩
  | .hashMap a b, k, n, hn, h => by
    simp only [low, Build.lowerTy, refOk, Bool.and_eq_true] at h
    obtain ⟨e, he, hF⟩ := size_clos h.1 "k"
    obtain ⟨e', he', hF'⟩ := size_clos h.2 "v"
    obtain ⟨ss, hss, ho⟩ := encode_ty o sc a 0 (.var "k") rfl h.1
    obtain ⟨ss', hss', ho'⟩ := encode_ty o sc b 0 (.var "v") rfl h.2
    refine ⟨_, by simp only [encodeNonZero, he, he', hss, hss']; rfl, StmtsOk.single ?_⟩
    intro c m hc hs hw hp
    obtain ⟨f, hf, hF⟩ := hF c hc hs
    obtain ⟨f', hf', hF'⟩ := hF' c hc hs
    obtain ⟨g, hg, hG⟩ := ho.clos (by decide) hc hs
    obtain ⟨g', hg', hG'⟩ := ho'.clos (by decide) hc hs
    have hq := Place.get hp (fun q hq => nomatch hq)
    obtain ⟨u, m', h4, h5⟩ := call_encMap hw (hq.behind (by omega)) hf hF hf' hF' hg hG hg' hG'
    exact ⟨u, m', h4, h5.nz rfl⟩
  | .hashSet t, k, n, hn, h => by
    simp only [low, Build.lowerTy, refOk] at h
    obtain ⟨e, he, hF⟩ := size_clos h "v"
    obtain ⟨ss, hss, ho⟩ := encode_ty o sc t 0 (.var "v") rfl h
    refine ⟨_, by simp only [encodeNonZero, he, hss]; rfl, StmtsOk.single ?_⟩
    intro c m hc hs hw hp
    obtain ⟨f, hf, hF⟩ := hF c hc hs
    obtain ⟨g, hg, hG⟩ := ho.clos (by decide) hc hs
    have hq := Place.get hp (fun q hq => nomatch hq)
    obtain ⟨u, m', h4, h5⟩ := call_encHashSet hw (hq.behind (by omega)) hf hF hg hG
    exact ⟨u, m', h4, h5.nz rfl⟩
  | .option t, k, n, hn, h => by simp [low, Build.lowerTy, refOk] at h
  | .nonZero t, k, n, hn, h => by simp [low, Build.lowerTy, refOk] at h
  | .tuple ts, k, n, hn, h => by simp [low, Build.lowerTy, refOk] at h
  | .array t l, k, n, hn, h => by simp [low, Build.lowerTy, refOk] at h
  | .external path name args, k, n, hn, h => by
    simp only [low, Build.lowerTy] at h
    split at h <;> simp [refOk] at h
/-- The elements of a tuple. -/
theorem encode_items (o : BytesType) (sc : Scope) (ts : List Ty) : ∀ (us : List Simplify.Ty) (k : Nat) (n : Name) (i : Nat),
    n.refs = k → refOks o sc.arity (k + 1) (Build.lowerTys sc.look sc.generics us) = true →
    ts.drop i = Build.lowerTys sc.look sc.generics us →
    ∃ ss, encodeItems o us n i = some ss ∧ EncItemsOk o sc ts k n i (Build.lowerTys sc.look sc.generics us) ss
  | [], k, n, i, hn, h, hd => by
    refine ⟨[], rfl, ?_⟩
    intro c m hc hs hw hp
    refine ⟨_, Runs.nil c, ?_⟩
    intro env args W s xs hv hwt ha
    simp only [Build.lowerTys, Schema.Ty.substList, Codegen.encTuple, write_nil, pureM]
  | u :: us, k, n, i, hn, h, hd => by
    simp only [Build.lowerTys, refOks, Bool.and_eq_true] at h hd
    obtain ⟨ss, hss, ho⟩ := encode_ty o sc u (k + 1) (n.item i) (by simp [Name.item, hn]) h.1
    have hd' : ts.drop (i + 1) = Build.lowerTys sc.look sc.generics us := by
      rw [← List.drop_drop, hd]
      rfl
    obtain ⟨ss', hss', hr⟩ := encode_items o sc ts us k n (i + 1) hn h.2 hd'
    refine ⟨ss ++ ss', by simp only [encodeItems, hss, hss']; rfl, ?_⟩
    intro c m hc hs hw hp
    have hi : ts[i]? = some (low sc u) := by
      have := congrArg (fun l => l[0]?) hd
      simpa using this
    obtain ⟨m1, h1, h2⟩ := ho c _ hc hs hw (hp.item hi)
    obtain ⟨m2, h3, h4⟩ := hr c m hc hs hw hp
    refine ⟨_, h1.append h3, ?_⟩
    intro env args W s xs hv hwt ha
    cases hx : xs.drop i with
    | nil =>
      rw [hx] at hwt
      simp [Build.lowerTys, Schema.Ty.substList, wtTuple] at hwt
    | cons x rest =>
      rw [hx] at hwt
      simp only [Build.lowerTys, Schema.Ty.substList, wtTuple, Bool.and_eq_true] at hwt
      have hxi : xs[i]? = some x := by
        have := congrArg (fun l => l[0]?) hx
        simpa using this
      have hx' : xs.drop (i + 1) = rest := by
        rw [← List.drop_drop, hx]
        rfl
      have hmem : x ∈ xs := List.mem_of_getElem? hxi
      have e1 := h2 env args W s x (fun out => by
        rw [M.bind_ok (hv out)]
        simp only [onList, itemM, hxi]
        rfl) hwt.1 (ha.mono (mem_size hmem))
      have e2 := h4 env args W (s.write (Codegen.enc env false ((low sc u).subst args) x)) xs (hv.write _)
        (by rw [hx']; exact hwt.2) ha
      rw [M.bind_ok e1, e2, write_write, hx']
      simp only [Build.lowerTys, Schema.Ty.substList, Codegen.encTuple]
end

end Mabo.Rust
