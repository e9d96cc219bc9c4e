import Verif.Rust.TextSem
import Verif.CodegenLemmas
/-!
The generated decoders: the code of `decodeTy` compiles and reads `Codegen.decTy`.
-/
namespace Mabo.Rust
open Mabo.Buf Mabo.Codegen
open Mabo.Schema (Prim Ty Val Env)

/-- The traits read what the model reads. -/
def DecAgree (o : BytesType) (arity : List String → Option Nat) (dext : List String → List Ty → Dec Val) (args : List Ty)
    (W : World) : Prop :=
  ∀ t, hasDec o arity t = true → W.dec t = decTy dext false (t.subst args)

/-- The outcome of an expression of type `Result` is that of a decoder. With an error it may also leave the function. -/
def OutAs (out : Out) (s : St) : Res Val → Prop
  | .ok v r => out = .ok (.ok (.val v)) { s with input := r }
  | .err e => out = .ret e ∨ ∃ s', out = .ok (.fail e) s'
  | .panic => out = .panic
  | .hang => out = .hang

/-- An execution that reads a value of the type. -/
def Reads (o : BytesType) (arity : List String → Option Nat) (root : Bool) (T : Ty) (m : M) : Prop :=
  ∀ dext args W s, DecAgree o arity dext args W → OutAs (m W s) s (decTy dext root (T.subst args) s.input)

/-- A function that reads values of the type. -/
def DecFn (o : BytesType) (arity : List String → Option Nat) (T : Ty) (f : List RVal → M) : Prop :=
  ∀ dext args W s, DecAgree o arity dext args W → asDec f W s = decTy dext false (T.subst args)

/-- Where the reader is available and errors can be returned. -/
structure Reader (c : Ctx) : Prop where
  var : ∃ b, c.find "r" = some (.reader, b)
  ret : ∃ t, c.ret = .result t

theorem Reader.arg {c : Ctx} (h : Reader c) : (den r).reader c = some () := by
  obtain ⟨b, h⟩ := h.var
  simp [r, den, Arg.expr, Arg.reader, varSem, h]

/-- The expression reads a value of the type. -/
def ReadOk (o : BytesType) (sc : Scope) (root : Bool) (T : Ty) (e : Expr) : Prop :=
  ∀ c, c.opts = o → c.scope = sc → Reader c → ∃ u m,
    (den e).plain c (some (.result (.own T))) = some (.result (.own u), m) ∧ rustOf o u = rustOf o T ∧
      Reads o sc.arity root T m

theorem check_same {e : Elab} {c : Ctx} {t u : RType} {m : M} (h : e c (some t) = some (u, m)) (hs : u.same c.opts t = true) :
    e.check c t = some m := by
  simp only [Elab.check, h, hs, if_true]

theorem same_own {o : BytesType} {t u : Ty} (h : rustOf o u = rustOf o t) : (RType.own u).same o (.own t) = true := by
  simp [RType.same, h]

theorem same_result {o : BytesType} {t u : Ty} (h : rustOf o u = rustOf o t) :
    (RType.result (.own u)).same o (.result (.own t)) = true := by
  simp [RType.same, h]

theorem map_map {α β γ : Type} (x : Res α) (f : α → β) (g : β → γ) : (x.map f).map g = x.map fun a => g (f a) := by
  cases x <;> rfl

theorem readM_as {d : World → St → Res RVal} {W : World} {s : St} {x : Res Val} (h : d W s = x.map .val) :
    OutAs (readM d W s) s x := by
  simp only [readM, h]
  cases x with
  | ok v r => rfl
  | err e => exact .inr ⟨s, rfl⟩
  | panic => rfl
  | hang => rfl

/-- A closure around a decoder. -/
theorem ReadOk.clos {o : BytesType} {sc : Scope} {T : Ty} {e : Expr} (h : ReadOk o sc false T e) {c : Ctx} (hc : c.opts = o)
    (hs : c.scope = sc) :
    ∃ f, (den (reading e)).fn c [.reader] (.result (.own T)) = some f ∧ DecFn o sc.arity T f := by
  obtain ⟨u, m, h1, h2, h3⟩ := h (c.clos ["r"] [.reader] (.result (.own T))) hc hs ⟨⟨false, rfl⟩, _, rfl⟩
  refine ⟨closM ["r"] m, fn_eq rfl (by simp) (check_same (u := .result (.own u))
    (by simpa only [denStmts, denStmt, seqSem] using h1) (by rw [show (c.clos ["r"] [.reader] (.result (.own T))).opts = o from hc]
                                                             exact same_result h2)), ?_⟩
  intro dext args W s ha
  funext b
  have := h3 dext args W { s with input := b, vars := bindAll ["r"] [.unit] ++ s.vars } ha
  simp only [asDec, closM]
  cases hd : decTy dext false (T.subst args) b with
  | ok v r' =>
    simp only [hd, OutAs] at this
    simp only [this]
  | err e =>
    simp only [hd, OutAs] at this
    rcases this with this | ⟨s', this⟩ <;> simp only [this]
  | panic =>
    simp only [hd, OutAs] at this
    simp only [this]
  | hang =>
    simp only [hd, OutAs] at this
    simp only [this]

/-! ### Calls -/

section
variable {o : BytesType} {sc : Scope} {root : Bool}

/-- What holds for the expressions that read. -/
theorem ReadOk.of {T : Ty} {e : Expr} (h : ∀ c, c.opts = o → c.scope = sc → Reader c → ∃ u d,
    (den e).plain c (some (.result (.own T))) = some (.result (.own u), readM d) ∧ rustOf o u = rustOf o T ∧
      ∀ dext args W s, DecAgree o sc.arity dext args W → d W s = (decTy dext root (T.subst args) s.input).map .val) :
    ReadOk o sc root T e := by
  intro c hc hs hr
  obtain ⟨u, d, h1, h2, h3⟩ := h c hc hs hr
  exact ⟨u, _, h1, h2, fun dext args W s ha => readM_as (h3 dext args W s ha)⟩

theorem read_val {p : Prim} (hp : byValue p = true) : ReadOk o sc root (.prim p) (.call (.decVal p) [r]) :=
  ReadOk.of fun c hc hs hr => ⟨.prim p, fun _ s => (decRep p.rep s.input).map .val, by
    rw [den, Arg.expr]
    simp only [denList, callSem, hr.arg, hp, Option.bind_eq_bind, Option.bind_some, if_true]
    rfl, rfl, fun dext args W s _ => by rw [Ty.subst, decTy]⟩

theorem refLeaf_returns {p : Prim} (hp : byValue p = false) (hb : p ≠ .boxString) (hb' : p ≠ .boxBytes) :
    (refLeaf o p).returns o = true ∧ rustPrim o (refLeaf o p).prim = rustPrim o p := by
  cases p <;> cases o <;> first | (simp [byValue] at hp; done) | exact absurd rfl hb | exact absurd rfl hb' | decide

theorem read_ref {p : Prim} (hp : byValue p = false) (hb : p ≠ .boxString) (hb' : p ≠ .boxBytes) :
    ReadOk o sc root (.prim p) (.call (.decRef (refLeaf o p)) [r]) := by
  refine ReadOk.of fun c hc hs hr => ⟨.prim (refLeaf o p).prim, fun _ s => (decRep p.rep s.input).map .val, ?_,
    by rw [rustOf, rustOf]; exact (refLeaf_returns hp hb hb').2, fun dext args W s _ => by rw [Ty.subst, decTy]⟩
  have h1 := (refLeaf_returns (o := o) hp hb hb').1
  rw [← refLeaf_rep (o := o) hp]
  rw [den, Arg.expr]
  subst hc
  simp only [denList, callSem, hr.arg, h1, Option.bind_eq_bind, Option.bind_some, if_true]
  rfl

theorem read_nzVal {p : Prim} (hp : isInt p = true) : ReadOk o sc root (.nonZero (.prim p)) (.call (.decNzVal p) [r]) :=
  ReadOk.of fun c hc hs hr => ⟨.nonZero (.prim p), fun _ s => (decNzRep p.rep s.input).map .val, by
    rw [den, Arg.expr]
    simp only [denList, callSem, hr.arg, hp, Option.bind_eq_bind, Option.bind_some, if_true]
    rfl, rfl, fun dext args W s _ => by
      rw [Ty.subst, Ty.subst, decTy, if_pos (nzPrim_arg (by cases p <;> first | rfl | simp [isInt] at hp))]⟩

theorem read_nzRef {p : Prim} (hp : nzPrim p = true) (hi : isInt p = false) :
    ReadOk o sc root (.nonZero (.prim p)) (.call (.decNzRef (refLeaf o p)) [r]) := by
  have hb : byValue p = false := (nz_noInt hp hi).2.1
  have h1 := refLeaf_returns (o := o) (p := p) hb (by cases p <;> simp_all [nzPrim]) (by cases p <;> simp_all [nzPrim])
  refine ReadOk.of fun c hc hs hr => ⟨.nonZero (.prim (refLeaf o p).prim), fun _ s => (decNzRep p.rep s.input).map .val, ?_,
    ?_, fun dext args W s _ => by rw [Ty.subst, Ty.subst, decTy, if_pos (nzPrim_arg hp)]⟩
  · rw [← refLeaf_rep (o := o) hb]
    rw [den, Arg.expr]
    subst hc
    simp only [denList, callSem, hr.arg, h1.1, Option.bind_eq_bind, Option.bind_some, if_true]
    rfl
  · have h2 : ∀ q, isInt q = false → rustOf o (.nonZero (.prim q)) = .builtin "NonZero" [rustPrim o q] := by
      intro q hq
      cases q <;> first | rfl | simp [isInt] at hq
    rw [h2 _ hi, h2 _ (by cases p <;> cases o <;> first | rfl | simp [isInt] at hi | simp [nzPrim] at hp), h1.2]

/-- A decoder that the trait has. -/
theorem read_trait {t : Simplify.Ty} {e : TyE} (h : readTy sc e = some (rustOf o (low sc t)))
    (hd : hasDec o sc.arity (low sc t) = true)
    (hroot : ∀ dext args, decTy dext root ((low sc t).subst args) = decTy dext false ((low sc t).subst args)) :
    ReadOk o sc root (low sc t) (.decode ⟨e, t⟩ r) := by
  refine ReadOk.of fun c hc hs hr => ⟨low sc t, fun W s => (W.dec (low sc t) s.input).map .val, ?_, rfl, ?_⟩
  · have h1 := typed_ok hc hs h
    subst hc hs
    rw [den, Arg.expr]
    simp only [decodeSem, h1, hr.arg, hd, Option.bind_eq_bind, Option.bind_some, if_true]
  · intro dext args W s ha
    simp only [ha _ hd, hroot]

theorem call_decVec {T : Ty} {cl : Expr} (h : ∀ c, c.opts = o → c.scope = sc →
    ∃ f, (den cl).fn c [.reader] (.result (.own T)) = some f ∧ DecFn o sc.arity T f) :
    ReadOk o sc root (.vec T) (.call .decVec [r, cl]) := by
  refine ReadOk.of fun c hc hs hr => ?_
  obtain ⟨f, h1, h2⟩ := h c hc hs
  refine ⟨.vec T, _, by
    rw [den, Arg.expr]
    simp only [denList, callSem, hr.arg, h1, Option.bind_eq_bind, Option.bind_some]
    rfl, rfl, ?_⟩
  intro dext args W s ha
  rw [h2 dext args W s ha, Ty.subst, decTy, map_map]

theorem call_decSet {T : Ty} {cl : Expr} (hh : hashable T = true) (h : ∀ c, c.opts = o → c.scope = sc →
    ∃ f, (den cl).fn c [.reader] (.result (.own T)) = some f ∧ DecFn o sc.arity T f) :
    ReadOk o sc root (.hashSet T) (.call .decHashSet [r, cl]) := by
  refine ReadOk.of fun c hc hs hr => ?_
  obtain ⟨f, h1, h2⟩ := h c hc hs
  refine ⟨.hashSet T, _, by
    rw [den, Arg.expr]
    simp only [denList, callSem, hr.arg, h1, hh, Option.bind_eq_bind, Option.bind_some, if_true]
    rfl, rfl, ?_⟩
  intro dext args W s ha
  rw [h2 dext args W s ha, Ty.subst, decTy, map_map]

theorem call_decOption {T : Ty} {cl : Expr} (h : ∀ c, c.opts = o → c.scope = sc →
    ∃ f, (den cl).fn c [.reader] (.result (.own T)) = some f ∧ DecFn o sc.arity T f) :
    ReadOk o sc root (.option T) (.call .decOption [r, cl]) := by
  refine ReadOk.of fun c hc hs hr => ?_
  obtain ⟨f, h1, h2⟩ := h c hc hs
  refine ⟨.option T, _, by
    rw [den, Arg.expr]
    simp only [denList, callSem, hr.arg, h1, Option.bind_eq_bind, Option.bind_some]
    rfl, rfl, ?_⟩
  intro dext args W s ha
  rw [h2 dext args W s ha, Ty.subst, decTy, map_map]
  congr 1
  funext x
  cases x <;> rfl

theorem call_decArray {T : Ty} {n : Nat} {cl : Expr} (h : ∀ c, c.opts = o → c.scope = sc →
    ∃ f, (den cl).fn c [.reader] (.result (.own T)) = some f ∧ DecFn o sc.arity T f) :
    ReadOk o sc root (.array T n) (.call .decArray [r, cl]) := by
  refine ReadOk.of fun c hc hs hr => ?_
  obtain ⟨f, h1, h2⟩ := h c hc hs
  refine ⟨.array T n, _, by
    rw [den, Arg.expr]
    simp only [denList, callSem, hr.arg, h1, Option.bind_eq_bind, Option.bind_some]
    rfl, rfl, ?_⟩
  intro dext args W s ha
  rw [h2 dext args W s ha, Ty.subst, decTy, map_map]

theorem call_decMap {K V : Ty} {ck cv : Expr} (hh : hashable K = true)
    (hk : ∀ c, c.opts = o → c.scope = sc → ∃ f, (den ck).fn c [.reader] (.result (.own K)) = some f ∧ DecFn o sc.arity K f)
    (hv : ∀ c, c.opts = o → c.scope = sc → ∃ f, (den cv).fn c [.reader] (.result (.own V)) = some f ∧ DecFn o sc.arity V f) :
    ReadOk o sc root (.hashMap K V) (.call .decHashMap [r, ck, cv]) := by
  refine ReadOk.of fun c hc hs hr => ?_
  obtain ⟨f, h1, h2⟩ := hk c hc hs
  obtain ⟨g, h3, h4⟩ := hv c hc hs
  refine ⟨.hashMap K V, _, by
    rw [den, Arg.expr]
    simp only [denList, callSem, hr.arg, h1, h3, hh, Option.bind_eq_bind, Option.bind_some, if_true]
    rfl, rfl, ?_⟩
  intro dext args W s ha
  rw [h2 dext args W s ha, h4 dext args W s ha, Ty.subst, decTy, map_map]

theorem call_decNzVec {T : Ty} {cl : Expr} (h : ∀ c, c.opts = o → c.scope = sc →
    ∃ f, (den cl).fn c [.reader] (.result (.own T)) = some f ∧ DecFn o sc.arity T f) :
    ReadOk o sc root (.nonZero (.vec T)) (.call .decNzVec [r, cl]) := by
  refine ReadOk.of fun c hc hs hr => ?_
  obtain ⟨f, h1, h2⟩ := h c hc hs
  refine ⟨.nonZero (.vec T), _, by
    rw [den, Arg.expr]
    simp only [denList, callSem, hr.arg, h1, Option.bind_eq_bind, Option.bind_some]
    rfl, rfl, ?_⟩
  intro dext args W s ha
  rw [h2 dext args W s ha, Ty.subst, Ty.subst, decTy, map_map]

theorem call_decNzSet {T : Ty} {cl : Expr} (hh : hashable T = true) (h : ∀ c, c.opts = o → c.scope = sc →
    ∃ f, (den cl).fn c [.reader] (.result (.own T)) = some f ∧ DecFn o sc.arity T f) :
    ReadOk o sc root (.nonZero (.hashSet T)) (.call .decNzHashSet [r, cl]) := by
  refine ReadOk.of fun c hc hs hr => ?_
  obtain ⟨f, h1, h2⟩ := h c hc hs
  refine ⟨.nonZero (.hashSet T), _, by
    rw [den, Arg.expr]
    simp only [denList, callSem, hr.arg, h1, hh, Option.bind_eq_bind, Option.bind_some, if_true]
    rfl, rfl, ?_⟩
  intro dext args W s ha
  rw [h2 dext args W s ha, Ty.subst, Ty.subst, decTy, map_map]

theorem call_decNzMap {K V : Ty} {ck cv : Expr} (hh : hashable K = true)
    (hk : ∀ c, c.opts = o → c.scope = sc → ∃ f, (den ck).fn c [.reader] (.result (.own K)) = some f ∧ DecFn o sc.arity K f)
    (hv : ∀ c, c.opts = o → c.scope = sc → ∃ f, (den cv).fn c [.reader] (.result (.own V)) = some f ∧ DecFn o sc.arity V f) :
    ReadOk o sc root (.nonZero (.hashMap K V)) (.call .decNzHashMap [r, ck, cv]) := by
  refine ReadOk.of fun c hc hs hr => ?_
  obtain ⟨f, h1, h2⟩ := hk c hc hs
  obtain ⟨g, h3, h4⟩ := hv c hc hs
  refine ⟨.nonZero (.hashMap K V), _, by
    rw [den, Arg.expr]
    simp only [denList, callSem, hr.arg, h1, h3, hh, Option.bind_eq_bind, Option.bind_some, if_true]
    rfl, rfl, ?_⟩
  intro dext args W s ha
  rw [h2 dext args W s ha, h4 dext args W s ha, Ty.subst, Ty.subst, decTy, map_map]

/-! ### Tuples -/

/-- The elements of a tuple one after the other. -/
def ItemsAs (ms : List M) (W : World) (s : St) (k : List Val → M) : Res (List Val) → Prop
  | .ok vs r => valuesM ms k W s = k vs W { s with input := r }
  | .err e => valuesM ms k W s = .ret e
  | .panic => valuesM ms k W s = .panic
  | .hang => valuesM ms k W s = .hang

/-- `e?` of an expression that reads. -/
theorem try_ok {T : Ty} {e : Expr} (h : ReadOk o sc root T e) {c : Ctx} (hc : c.opts = o) (hs : c.scope = sc) (hr : Reader c) :
    ∃ u m, (den (.try e)).plain c (some (.own T)) = some (.own u, m) ∧ rustOf o u = rustOf o T ∧
      ∀ dext args W s, DecAgree o sc.arity dext args W →
        m W s =
          match decTy dext root (T.subst args) s.input with
          | .ok v r => .ok (.val v) { s with input := r }
          | .err e => .ret e
          | .panic => .panic
          | .hang => .hang := by
  obtain ⟨u, m, h1, h2, h3⟩ := h c hc hs hr
  obtain ⟨t, ht⟩ := hr.ret
  refine ⟨u, _, by
    rw [den, Arg.expr]
    simp only [trySem, Option.map_some, h1, ht, Option.bind_eq_bind, Option.bind_some]
    rfl, h2, ?_⟩
  intro dext args W s ha
  have := h3 dext args W s ha
  simp only [M.bind]
  cases hd : decTy dext root (T.subst args) s.input with
  | ok v r' =>
    simp only [hd, OutAs] at this
    simp only [this, Out.bind]
  | err e =>
    simp only [hd, OutAs] at this
    rcases this with this | ⟨s', this⟩ <;> simp only [this, Out.bind]
  | panic =>
    simp only [hd, OutAs] at this
    simp only [this, Out.bind]
  | hang =>
    simp only [hd, OutAs] at this
    simp only [this, Out.bind]

/-- Elements that read. -/
theorem items_nil (c : Ctx) : itemsSem c (denList []) [] = some [] := rfl

theorem items_cons {T : Ty} {Ts : List Ty} {e : Expr} {es : List Expr} {c : Ctx} {m : M} {ms : List M}
    (h : (den e).plain.check c (.own T) = some m) (h' : itemsSem c (denList es) Ts = some ms) :
    itemsSem c (denList (e :: es)) (T :: Ts) = some (m :: ms) := by
  simp only [denList, itemsSem, h, h', Option.bind_eq_bind, Option.bind_some]

/-- All elements of a tuple. -/
def ItemsOkR (o : BytesType) (sc : Scope) (Ts : List Ty) (es : List Expr) : Prop :=
  ∀ c, c.opts = o → c.scope = sc → Reader c → ∃ ms, itemsSem c (denList es) Ts = some ms ∧
    ∀ dext args W s k, DecAgree o sc.arity dext args W → ItemsAs ms W s k (decTuple dext (Ty.substList args Ts) s.input)

theorem ReadOk.cons {T : Ty} {Ts : List Ty} {e : Expr} {es : List Expr} (h : ReadOk o sc false T e)
    (h' : ItemsOkR o sc Ts es) : ItemsOkR o sc (T :: Ts) (.try e :: es) := by
  intro c hc hs hr
  obtain ⟨u, m, h1, h2, h3⟩ := try_ok h hc hs hr
  obtain ⟨ms, h4, h5⟩ := h' c hc hs hr
  refine ⟨_, items_cons (check_same h1 (by rw [hc]; exact same_own h2)) h4, ?_⟩
  intro dext args W s k ha
  have h6 := h3 dext args W s ha
  rw [Ty.substList, decTuple]
  show ItemsAs _ W s k ((decTy dext false (T.subst args) s.input).bind fun v r =>
    (decTuple dext (Ty.substList args Ts) r).map (v :: ·))
  cases hd : decTy dext false (T.subst args) s.input with
  | ok v r' =>
    simp only [hd] at h6
    have h7 := h5 dext args W { s with input := r' } (fun vs => k (v :: vs)) ha
    simp only [Res.bind_ok]
    have h8 : valuesM (m :: ms) k W s = valuesM ms (fun vs => k (v :: vs)) W { s with input := r' } := by
      show (m W s).bind _ = _
      rw [h6]
      rfl
    cases ht : decTuple dext (Ty.substList args Ts) r' <;> simp only [ht, ItemsAs] at h7 <;>
      simp only [Res.map_ok, Res.map_err, Res.map_panic, Res.map_hang, ItemsAs] <;> rw [h8, h7]
  | err e =>
    simp only [hd] at h6
    show (m W s).bind _ = _
    rw [h6]
    rfl
  | panic =>
    simp only [hd] at h6
    show (m W s).bind _ = _
    rw [h6]
    rfl
  | hang =>
    simp only [hd] at h6
    show (m W s).bind _ = _
    rw [h6]
    rfl

/-- `Ok((a?, b?))` -/
theorem ok_tuple {Ts : List Ty} {es : List Expr} (h : ItemsOkR o sc Ts es) (hp : sc.values "Ok" = false) {c : Ctx}
    (hc : c.opts = o) (hs : c.scope = sc) (hr : Reader c) :
    ∃ m, (den (.okTyped (.tuple es))).plain c (some (.result (.own (.tuple Ts)))) = some (.result (.own (.tuple Ts)), m) ∧
      ∀ dext args W s, DecAgree o sc.arity dext args W →
        OutAs (m W s) s ((decTuple dext (Ty.substList args Ts) s.input).map .list) := by
  obtain ⟨ms, h1, h2⟩ := h c hc hs hr
  have hv : c.scope.values "Ok" = false := by rw [hs]; exact hp
  refine ⟨_, by
    rw [den, Arg.expr]
    simp only [okSem, hv, expOk, den, Arg.expr, tupleSem, h1, Option.bind_eq_bind, Option.bind_some]
    rfl, ?_⟩
  intro dext args W s ha
  have := h2 dext args W s (fun vs => pureM (.val (.list vs))) ha
  cases ht : decTuple dext (Ty.substList args Ts) s.input <;> simp only [ht, ItemsAs] at this <;>
    simp only [Res.map_ok, Res.map_err, Res.map_panic, Res.map_hang, OutAs, M.bind, this, Out.bind, pureM]
  exact .inl trivial

theorem inBlock_as {m : M} {W : World} {s s' : St} {x : Res Val} (hs : s'.vars = s.vars) (hi : ∀ r, { s' with input := r } =
    { s with input := r }) (h : OutAs (m W s) s' x) : OutAs (inBlock m W s) s x := by
  cases x with
  | ok v r' =>
    simp only [OutAs] at h ⊢
    simp only [inBlock, h, leave, hs, Nat.sub_self, List.drop_zero]
    rw [← hi]
    simp only [hs]
  | err e =>
    simp only [OutAs] at h ⊢
    rcases h with h | ⟨t, h⟩
    · exact .inl (by simp only [inBlock, h])
    · exact .inr ⟨leave s.vars.length t, by simp only [inBlock, h]⟩
  | panic =>
    simp only [OutAs] at h ⊢
    simp only [inBlock, h]
  | hang =>
    simp only [OutAs] at h ⊢
    simp only [inBlock, h]

theorem read_tuple {Ts : List Ty} {es : List Expr} (h : ItemsOkR o sc Ts es) (hp : sc.values "Ok" = false)
    (hl : 2 ≤ Ts.length ∧ Ts.length ≤ 12) :
    ReadOk o sc root (.tuple Ts) (.block ((if root then [.semi (.try (.call (.decVal .u64) [r]))] else []) ++
      [.tail (.okTyped (.tuple es))])) := by
  intro c hc hs hr
  obtain ⟨m, h1, h2⟩ := ok_tuple h hp hc hs hr
  have hlen : ∀ args, 2 ≤ (Ty.substList args Ts).length ∧ (Ty.substList args Ts).length ≤ 12 := by
    intro args
    have : (Ty.substList args Ts).length = Ts.length := by
      clear h h1 h2 hl
      induction Ts with
      | nil => rfl
      | cons t ts ih => rw [Ty.substList, List.length_cons, List.length_cons, ih]
    rw [this]
    exact hl
  cases root with
  | false =>
    refine ⟨.tuple Ts, inBlock m, block_eq (by simpa only [denStmts, denStmt, seqSem, List.nil_append, if_false,
      Bool.false_eq_true] using h1), rfl, ?_⟩
    intro dext args W s ha
    have h3 := h2 dext args W s ha
    rw [Ty.subst, decTy, if_pos (hlen args)]
    exact inBlock_as rfl (fun _ => rfl) h3
  | true =>
    obtain ⟨t, ht⟩ := hr.ret
    have hu : (den (.try (.call (.decVal .u64) [r]))).plain c none = some (.own (.prim .u64),
        (decM (decRep (Prim.rep .u64))).bind fun v _ s =>
          match v with
          | .ok v => .ok v s
          | .fail e => .ret e
          | _ => .panic) := by
      rw [den, Arg.expr]
      simp only [trySem, den, Arg.expr, denList, callSem, hr.arg, ht, Option.bind_eq_bind, Option.bind_some, byValue,
        Option.map_none, if_true]
      rfl
    refine ⟨.tuple Ts, inBlock _, block_eq (by
      simp only [denStmts, denStmt, seqSem, List.cons_append, List.nil_append, if_true, hu, h1, Option.bind_eq_bind,
        Option.bind_some]
      rfl), rfl, ?_⟩
    intro dext args W s ha
    rw [Ty.subst, decTy, if_pos (hlen args), if_pos rfl]
    have hrep : decRep (Prim.rep .u64) s.input = (decUint 64 s.input).map fun v => Val.num v.toNat := rfl
    cases hd : decUint 64 s.input with
    | ok n r' =>
      rw [hd] at hrep
      have h3 := h2 dext args W { s with input := r' } ha
      refine inBlock_as (s' := { s with input := r' }) rfl (fun _ => rfl) ?_
      simp only [M.bind, decM, readM, hrep, Res.map_ok, Out.bind, Res.bind_ok]
      exact h3
    | err e =>
      rw [hd] at hrep
      exact inBlock_as rfl (fun _ => rfl) (.inl (by simp only [M.bind, decM, readM, hrep, Res.map_err, Out.bind]))
    | panic =>
      rw [hd] at hrep
      exact inBlock_as (x := .panic) rfl (fun _ => rfl) (by simp only [OutAs, M.bind, decM, readM, hrep, Res.map_panic, Out.bind])
    | hang =>
      rw [hd] at hrep
      exact inBlock_as (x := .hang) rfl (fun _ => rfl) (by simp only [OutAs, M.bind, decM, readM, hrep, Res.map_hang, Out.bind])

end

/-! ### All types -/

theorem decTy_root {t : Ty} (h : ∀ ts, t ≠ .tuple ts) (root : Bool) (dext : List String → List Ty → Dec Val) :
    decTy dext root t = decTy dext false t := by
  cases t with
  | tuple ts => exact absurd rfl (h ts)
  | nonZero t => cases t <;> simp only [decTy]
  | _ => simp only [decTy]

mutual
/-- The code for a type compiles and reads what the model reads. -/
theorem decode_ty (o : BytesType) {sc : Scope} (hp : sc.values "Ok" = false) : ∀ (t : Simplify.Ty) (root : Bool),
    textOk o sc t = true → decOk o sc.arity (low sc t) = true →
    ∃ e, decodeTy o root t = some e ∧ ReadOk o sc root (low sc t) e
  | .prim p, root, ht, hd => by
    by_cases hb : p = .boxString
    · subst hb
      exact ⟨_, rfl, read_trait (t := .prim .boxString) (read_prim o .boxString (by rw [textOk] at ht; exact ht)) rfl fun dext args => by
        rw [decTy_root]
        intro ts
        simp [low, Build.lowerTy, Ty.subst]⟩
    · by_cases hb' : p = .boxBytes
      · subst hb'
        exact ⟨_, rfl, read_trait (t := .prim .boxBytes) (read_prim o .boxBytes (by rw [textOk] at ht; exact ht)) rfl fun dext args => by
          rw [decTy_root]
          intro ts
          simp [low, Build.lowerTy, Ty.subst]⟩
      · have he : decodeTy o root (.prim p) =
            if byValue p then some (.call (.decVal p) [r]) else some (.call (.decRef (refLeaf o p)) [r]) := by
          cases p <;> first | rfl | exact absurd rfl hb | exact absurd rfl hb'
        rw [he]
        by_cases hv : byValue p = true
        · exact ⟨_, by rw [if_pos hv], read_val hv⟩
        · exact ⟨_, by rw [if_neg hv], read_ref (by simpa using hv) hb hb'⟩
  | .vec t, root, ht, hd => by
    rw [textOk, Bool.and_eq_true] at ht
    rw [low, Build.lowerTy, decOk] at hd
    obtain ⟨e, h1, h2⟩ := decode_ty o hp t false ht.2 hd
    exact ⟨_, by simp only [decodeTy, h1]; rfl, call_decVec fun c hc hs => h2.clos hc hs⟩
  | .option t, root, ht, hd => by
    rw [textOk, Bool.and_eq_true] at ht
    rw [low, Build.lowerTy, decOk] at hd
    obtain ⟨e, h1, h2⟩ := decode_ty o hp t false ht.2 hd
    exact ⟨_, by simp only [decodeTy, h1]; rfl, call_decOption fun c hc hs => h2.clos hc hs⟩
  | .array t n, root, ht, hd => by
    rw [textOk] at ht
    rw [low, Build.lowerTy, decOk] at hd
    obtain ⟨e, h1, h2⟩ := decode_ty o hp t false ht hd
    exact ⟨_, by simp only [decodeTy, h1]; rfl, call_decArray fun c hc hs => h2.clos hc hs⟩
  | .hashSet t, root, ht, hd => by
    rw [textOk] at ht
    rw [low, Build.lowerTy, decOk, Bool.and_eq_true] at hd
    obtain ⟨e, h1, h2⟩ := decode_ty o hp t false ht hd.2
    exact ⟨_, by simp only [decodeTy, h1]; rfl, call_decSet hd.1 fun c hc hs => h2.clos hc hs⟩
  | .hashMap k v, root, ht, hd => by
    rw [textOk, Bool.and_eq_true] at ht
    rw [low, Build.lowerTy, decOk, Bool.and_eq_true, Bool.and_eq_true] at hd
    obtain ⟨e, h1, h2⟩ := decode_ty o hp k false ht.1 hd.1.2
    obtain ⟨e', h3, h4⟩ := decode_ty o hp v false ht.2 hd.2
    exact ⟨_, by simp only [decodeTy, h1, h3]; rfl,
      call_decMap hd.1.1 (fun c hc hs => h2.clos hc hs) fun c hc hs => h4.clos hc hs⟩
  | .nonZero t, root, ht, hd => by
    cases t with
    | prim p =>
      rw [textOk] at ht
      by_cases hi : isInt p = true
      · exact ⟨_, by simp only [decodeTy, hi, if_true], read_nzVal hi⟩
      · rw [Bool.not_eq_true] at hi
        exact ⟨_, by simp only [decodeTy, hi, (nz_noInt ht hi).1, if_true]; rfl, read_nzRef ht hi⟩
    | vec t =>
      rw [textOk] at ht
      rw [low, Build.lowerTy, Build.lowerTy, decOk] at hd
      obtain ⟨e, h1, h2⟩ := decode_ty o hp t false ht hd
      exact ⟨_, by simp only [decodeTy, h1]; rfl, call_decNzVec fun c hc hs => h2.clos hc hs⟩
    | hashSet t =>
      rw [textOk] at ht
      rw [low, Build.lowerTy, Build.lowerTy, decOk, Bool.and_eq_true] at hd
      obtain ⟨e, h1, h2⟩ := decode_ty o hp t false ht hd.2
      exact ⟨_, by simp only [decodeTy, h1]; rfl, call_decNzSet hd.1 fun c hc hs => h2.clos hc hs⟩
    | hashMap k v =>
      rw [textOk, Bool.and_eq_true] at ht
      rw [low, Build.lowerTy, Build.lowerTy, decOk, Bool.and_eq_true, Bool.and_eq_true] at hd
      obtain ⟨e, h1, h2⟩ := decode_ty o hp k false ht.1 hd.1.2
      obtain ⟨e', h3, h4⟩ := decode_ty o hp v false ht.2 hd.2
      exact ⟨_, by simp only [decodeTy, h1, h3]; rfl,
        call_decNzMap hd.1.1 (fun c hc hs => h2.clos hc hs) fun c hc hs => h4.clos hc hs⟩
    | _ => simp [textOk] at ht
  | .tuple ts, root, ht, hd => by
    rw [textOk] at ht
    rw [low, Build.lowerTy, decOk, Bool.and_eq_true, lowerTys_length] at hd
    obtain ⟨es, h1, h2⟩ := decode_items o hp ts ht hd.2
    refine ⟨_, by simp only [decodeTy, hd.1, if_true, h1]; rfl, read_tuple h2 hp ?_⟩
    rw [lowerTys_length]
    simpa [tupleArm] using hd.1
  | .external path name args, root, ht, hd => by
    obtain ⟨e, h1, h2⟩ := text_ok o _ ht
    refine ⟨_, by simp only [decodeTy, h1]; rfl, read_trait h2 ?_ fun dext as => ?_⟩
    · rw [low, Build.lowerTy] at hd ⊢
      by_cases hc : path = [] ∧ name ∈ sc.generics
      · rw [if_pos hc] at hd ⊢
        rfl
      · rw [if_neg hc] at hd ⊢
        rw [decOk] at hd
        exact hd
    · rw [decTy_root]
      intro ts
      rw [low, Build.lowerTy]
      by_cases hc : path = [] ∧ name ∈ sc.generics
      · rw [if_pos hc]
        simp only [Ty.subst]
        split <;> simp
      · rw [if_neg hc]
        simp [Ty.subst]
/-- The elements of a tuple. -/
theorem decode_items (o : BytesType) {sc : Scope} (hp : sc.values "Ok" = false) : ∀ ts : List Simplify.Ty,
    textOks o sc ts = true → decOks o sc.arity (Build.lowerTys sc.look sc.generics ts) = true →
    ∃ es, decodeItems o ts = some es ∧ ItemsOkR o sc (Build.lowerTys sc.look sc.generics ts) es
  | [], _, _ => ⟨[], rfl, fun c _ _ _ => ⟨[], rfl, fun dext args W s k _ => rfl⟩⟩
  | t :: ts, ht, hd => by
    rw [textOks, Bool.and_eq_true] at ht
    rw [Build.lowerTys, decOks, Bool.and_eq_true] at hd
    obtain ⟨e, h1, h2⟩ := decode_ty o hp t false ht.1 hd.1
    obtain ⟨es, h3, h4⟩ := decode_items o hp ts ht.2 hd.2
    exact ⟨_, by simp only [decodeItems, h1, h3]; rfl, h2.cons h4⟩
end

end Mabo.Rust
