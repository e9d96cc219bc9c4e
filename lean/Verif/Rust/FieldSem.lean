import Verif.Rust.EncodeSem
import Verif.Rust.Run
/-!
The generated functions `size` and `encode` of structs and enums: they compile and do what `Codegen.size` and `Codegen.enc`
say.
-/
namespace Mabo.Rust
open Mabo.Buf Mabo.Codegen Mabo.Spec
open Mabo.Schema (Prim Ty Val wt wtList wtEntries wtTuple wtFields Env FieldKind)

/-! ### Values in field position -/

/-- The meaning of a variable. -/
def lookM (x : String) : M := fun _ s =>
  match s.vars.lookup x with
  | some v => .ok v s
  | none => .panic

theorem Place.ofVar {c : Ctx} {x : String} {t : Ty} {m : M} (h : Place c (.var x) 1 t m) :
    (∃ b, c.find x = some (.ref (.own t), b)) ∧ m = lookM x := by
  have := h none
  simp only [Name.var, den, Arg.expr, varSem, refN] at this
  cases hf : c.find x with
  | none => rw [hf] at this; cases this
  | some p =>
    rw [hf] at this
    simp only [Option.bind_eq_bind, Option.bind_some] at this
    injection this with this
    injection this with h1 h2
    exact ⟨⟨p.2, by rw [← h1]⟩, h2.symm⟩

theorem place_var {c : Ctx} {x : String} {t : Ty} {b : Bool} (h : c.find x = some (.ref (.own t), b)) :
    Place c (.var x) 1 t (lookM x) := Place.var h

theorem lookM_ok {x : String} {W : World} {s : St} {v : Val} (h : s.vars.lookup x = some (.val v)) :
    lookM x W s = .ok (.val v) s := by simp only [lookM, h]

theorem lookM_lookup {x : String} {W : World} {s : St} {v : Val} (h : lookM x W s = .ok (.val v) s) :
    s.vars.lookup x = some (.val v) := by
  unfold lookM at h
  cases hl : s.vars.lookup x with
  | none => rw [hl] at h; cases h
  | some u =>
    rw [hl] at h
    injection h with h
    rw [h]

theorem lookM_yields {x : String} {W : World} {s : St} {v : Val} (h : s.vars.lookup x = some (.val v)) :
    Yields (lookM x) W s v := fun out => lookM_ok (s := { s with output := out }) h

/-- Variables stay visible in closures. -/
theorem find_clos {c : Ctx} {x : String} {t : Ty} {b : Bool} (h : c.find x = some (.ref (.own t), b)) {xs : List String}
    {ps : List RType} {ret : RType} (hx : (typeAll xs ps).lookup x = none) :
    (c.clos xs ps ret).find x = some (.ref (.own t), b) := by
  unfold Ctx.find Ctx.clos
  simp only
  rw [List.lookup_append, hx, Option.none_or]
  exact find_filter rfl h

theorem isTuple_low {sc : Scope} {t : Simplify.Ty} (ht : ∀ ts, t ≠ .tuple ts) (args : List Ty) :
    isTuple ((low sc t).subst args) = false := by
  cases t with
  | tuple ts => exact absurd rfl (ht ts)
  | external path name as =>
    simp only [low, Build.lowerTy]
    split
    · simp only [Schema.Ty.subst]
      split <;> rfl
    · rfl
  | _ => rfl

theorem encodeTy_root {o : BytesType} {t : Simplify.Ty} (ht : ∀ ts, t ≠ .tuple ts) (n : Name) :
    encodeTy o true t n = encodeTy o false t n := by
  cases t with
  | tuple ts => exact absurd rfl (ht ts)
  | _ => simp only [encodeTy]

theorem StmtsOk.root {o : BytesType} {sc : Scope} {t : Simplify.Ty} {k : Nat} {n : Name} {ss : List Stmt}
    (h : StmtsOk o sc false (low sc t) k n ss) (ht : ∀ ts, t ≠ .tuple ts) : StmtsOk o sc true (low sc t) k n ss := by
  intro c m hc hs hw hp
  obtain ⟨m', hr, hm⟩ := h c m hc hs hw hp
  refine ⟨m', hr, ?_⟩
  intro env args W s v hv hwt ha
  rw [hm env args W s v hv hwt ha, enc_root (isTuple_low ht args)]

theorem call_encTuple {c : Ctx} {cl cl' : Expr} {f g : List RVal → M} (hw : Writes c)
    (hf : (den cl).fn c [] .usize = some f) (hg : (den cl').fn c [.writer] .unit = some g) (exp : Option RType) :
    (den (.call .encTuple [w, cl, cl'])).plain c exp =
      some (.unit, (f []).bind (onUsize fun n => (writeM (encLen n)).bind fun _ => g [.unit])) := by
  simp [den, denList, Arg.expr, callSem, hf, hg, hw.arg]

theorem lookup_past {α : Type} {x y : String} {a : α} {l : List (String × α)} (h : x ≠ y) :
    List.lookup x ((y, a) :: l) = List.lookup x l := by
  have : (x == y) = false := by simpa using h
  rw [List.lookup_cons, this]

theorem lookup_one {α : Type} {x y : String} {a : α} (h : x ≠ y) : List.lookup x [(y, a)] = none := by
  simp [h]

/-- The code that writes a value in field position. -/
theorem encode_root (o : BytesType) (sc : Scope) (t : Simplify.Ty) (x : String) (hx : x ≠ "w")
    (h : refOk o sc.arity 0 (low sc t) = true) :
    ∃ ss, encodeTy o true t (.var x) = some ss ∧ StmtsOk o sc true (low sc t) 0 (.var x) ss := by
  by_cases ht : ∃ ts, t = .tuple ts
  · obtain ⟨ts, rfl⟩ := ht
    obtain ⟨es, hes, hne, ho⟩ := size_ops o sc (.tuple ts) 0 (.var x) rfl h
    simp only [low, Build.lowerTy, refOk, Bool.and_eq_true, lowerTys_length] at h
    obtain ⟨ss, hss, hi⟩ := encode_items o sc (Build.lowerTys sc.look sc.generics ts) ts 0 (.var x) 0 rfl h.2 (by simp)
    simp only [sizeOps, h.1, if_true] at hes
    refine ⟨_, by simp only [encodeTy, h.1, if_true, hes, hss]; rfl, StmtsOk.single ?_⟩
    intro c m hc hs hw hp
    obtain ⟨⟨b, hf⟩, rfl⟩ := hp.ofVar
    -- the size
    have hp1 : Place (c.clos [] [] .usize) (.var x) 1 (low sc (.tuple ts)) (lookM x) := place_var (find_clos hf rfl)
    obtain ⟨m1, he1, hm1⟩ := ho.add hne (c := c.clos [] [] .usize) hc hs hp1
    have hf1 : (den (.closure [] [.tail (Rust.add es)])).fn c [] .usize = some (closM [] m1) :=
      fn_eq rfl (by simp) (check_eq (by simpa only [denStmts, denStmt, seqSem] using he1 _) rfl)
    -- the elements
    have hp2 : Place (c.clos ["w"] [.writer] .unit) (.var x) 1 (low sc (.tuple ts)) (lookM x) :=
      place_var (find_clos hf (lookup_one hx))
    have hw2 : Writes (c.clos ["w"] [.writer] .unit) := ⟨false, rfl⟩
    obtain ⟨m2, hr2, hm2⟩ := hi (c.clos ["w"] [.writer] .unit) _ hc hs hw2 hp2
    have hf2 : (den (.closure ["w"] ss)).fn c [.writer] .unit = some (closM ["w"] (m2.bind fun _ => pureM .unit)) :=
      fn_eq rfl (by simp) (check_eq (hr2.all _) rfl)
    refine ⟨.unit, _, call_encTuple hw hf1 hf2, ?_⟩
    intro env args W s v hv hwt ha
    have hl : s.vars.lookup x = some (.val v) := lookM_lookup hv.here
    have h1 := hm1 env args W s v (lookM_ok hl) hwt ha.size
    have h1' : closM [] m1 [] W s = .ok (.usize (Codegen.size env ((low sc (.tuple ts)).subst args) v)) s := by
      have := closM_ok (xs := []) (vs := []) (s := s) h1
      exact this
    rw [M.bind_ok h1']
    simp only [onUsize]
    rw [M.bind_ok (writeM_ok _ W s)]
    obtain ⟨xs, rfl, hxs⟩ := wt_tuple (ts := Schema.Ty.substList args (Build.lowerTys sc.look sc.generics ts)) hwt
    have h2 := hm2 env args W { s.write (encLen (Codegen.size env ((low sc (.tuple ts)).subst args) (.list xs))) with
        vars := bindAll ["w"] [.unit] ++ s.vars } xs (lookM_yields ((lookup_past hx).trans hl))
        (by simpa using hxs) ha
    have h3 := M.bind_ok (k := fun _ => pureM .unit) h2
    have h4 := closM_ok (xs := ["w"]) (vs := [.unit])
      (s := s.write (encLen (Codegen.size env ((low sc (.tuple ts)).subst args) (.list xs)))) (h3.trans rfl)
    refine Eq.trans h4 ?_
    simp only [List.drop_zero, low, Build.lowerTy, Schema.Ty.subst]
    rw [enc_root_tuple]
    rw [show Codegen.size env (.tuple (Schema.Ty.substList args (Build.lowerTys sc.look sc.generics ts))) (.list xs)
      = sizeTuple env (Schema.Ty.substList args (Build.lowerTys sc.look sc.generics ts)) xs by
        rw [Codegen.size.eq_def]; simp only [Schema.Ty.strip]]
    rw [show Codegen.enc env false (.tuple (Schema.Ty.substList args (Build.lowerTys sc.look sc.generics ts))) (.list xs)
      = Codegen.encTuple env (Schema.Ty.substList args (Build.lowerTys sc.look sc.generics ts)) xs by
        rw [Codegen.enc.eq_def]; simp only [Schema.Ty.strip]]
    simp [St.write]
  · have ht' : ∀ ts, t ≠ .tuple ts := fun ts e => ht ⟨ts, e⟩
    obtain ⟨ss, hss, ho⟩ := encode_ty o sc t 0 (.var x) rfl h
    exact ⟨ss, by rw [encodeTy_root ht', hss], ho.root ht'⟩

/-! ### Fields -/

/-- The size of one field. -/
def fieldSize (env : Env) (f : Schema.Field) (v : Val) : Nat :=
  match f.ty, v with
  | .option t, .some v => sizeFieldId f.id + Codegen.size env t v
  | .option _, _ => 0
  | t, v => Buf.sizeField f.id (Codegen.size env t v)

/-- The bytes of one field. -/
def fieldBytes (env : Env) (f : Schema.Field) (v : Val) : Bytes :=
  match f.ty, v with
  | .option t, .some v => encId ⟨f.id, Codegen.marker t⟩ ++ Codegen.enc env true t v
  | .option _, _ => []
  | t, v => Buf.encField ⟨f.id, Codegen.marker t⟩ (Codegen.enc env true t v)

theorem sizeFields_cons (env : Env) (f : Schema.Field) (fs : List Schema.Field) (v : Val) (vs : List Val) :
    Codegen.sizeFields env (f :: fs) (v :: vs) = fieldSize env f v + Codegen.sizeFields env fs vs := by
  rw [Codegen.sizeFields.eq_def]
  rfl

theorem encFields_cons (env : Env) (f : Schema.Field) (fs : List Schema.Field) (v : Val) (vs : List Val) :
    Codegen.encFields env (f :: fs) (v :: vs) = fieldBytes env f v ++ Codegen.encFields env fs vs := by
  rw [Codegen.encFields.eq_def]
  rfl

theorem not_option_low {sc : Scope} {t : Simplify.Ty} (ht : ∀ u, t ≠ .option u) (args : List Ty) :
    ∀ u, (low sc t).subst args ≠ .option u := by
  intro u
  cases t with
  | option u => exact absurd rfl (ht u)
  | external path name as =>
    simp only [low, Build.lowerTy]
    split
    · simp only [Schema.Ty.subst]
      split <;> exact fun e => nomatch e
    · exact fun e => nomatch e
  | _ => exact fun e => nomatch e

theorem fieldSize_plain {env : Env} {f : Schema.Field} {v : Val} (h : ∀ u, f.ty ≠ .option u) :
    fieldSize env f v = Buf.sizeField f.id (Codegen.size env f.ty v) := by
  obtain ⟨n, t, i⟩ := f
  cases t with
  | option u => exact absurd rfl (h u)
  | _ => rfl

theorem fieldBytes_plain {env : Env} {f : Schema.Field} {v : Val} (h : ∀ u, f.ty ≠ .option u) :
    fieldBytes env f v = Buf.encField ⟨f.id, Codegen.marker f.ty⟩ (Codegen.enc env true f.ty v) := by
  obtain ⟨n, t, i⟩ := f
  cases t with
  | option u => exact absurd rfl (h u)
  | _ => rfl

/-- A literal where a `u32` is expected. -/
theorem lit_check {c : Ctx} (id : BitVec 32) : (den (.lit id.toNat)).plain.check c .u32 = some (pureM (.val (.num id.toNat))) := by
  have h : id.toNat < 2 ^ 32 := id.isLt
  exact check_eq (by simp [den, Arg.expr, litSem, RType.u32, h]) (by simp [RType.same, RType.u32])

theorem ofNat_toNat (id : BitVec 32) : BitVec.ofNat 32 id.toNat = id := by simp

theorem call_sizeField {c : Ctx} {id : BitVec 32} {cl : Expr} {f : List RVal → M} (hf : (den cl).fn c [] .usize = some f)
    (exp : Option RType) : (den (.call .sizeField [.lit id.toNat, cl])).plain c exp =
      some (.usize, addM (pureM (.usize (sizeFieldId id))) (f [])) := by
  have hl := lit_check (c := c) id
  rw [den, Arg.expr]
  simp only [denList, callSem, hl, hf, Option.bind_eq_bind, Option.bind_some]
  congr 2
  funext W s
  rw [M.bind_ok (v := .val (.num id.toNat)) (s' := s) rfl]
  simp only [onVal, ofNat_toNat]

/-- `e.as_ref()` of a field. -/
theorem asRef_var {c : Ctx} {x : String} {t : Ty} {b : Bool} (h : c.find x = some (.ref (.own (.option t)), b)) (exp : Option RType) :
    (den (.method (.var x) .asRef [])).plain c exp = some (.optRef t, lookM x) := by
  have := (place_var h).expr none
  simp only [Name.var, Name.expr, refs] at this
  rw [den, Arg.expr]
  simp only [methodSem, this, denList, Option.bind_eq_bind, Option.bind_some]
  rfl

/-- The execution of `size_field_option`. -/
def sizeOptM (id : Nat) (f : List RVal → M) (v : Val) : M :=
  match v with
  | .some v => addM (pureM (.usize (sizeFieldId (BitVec.ofNat 32 id)))) (f [.val v])
  | .none => pureM (.usize 0)
  | _ => fun _ _ => .panic

theorem call_sizeFieldOption {c : Ctx} {id : BitVec 32} {e cl : Expr} {t : Ty} {m : M} {f : List RVal → M}
    (he : (den e).plain c none = some (.optRef t, m)) (hf : (den cl).fn c [.ref (.own t)] .usize = some f) :
    ∃ m', (∀ exp, (den (.call .sizeFieldOption [.lit id.toNat, e, cl])).plain c exp = some (.usize, m')) ∧
      ∀ W s, m' W s = m.bind (onVal (sizeOptM id.toNat f)) W s := by
  have hl := lit_check (c := c) id
  refine ⟨_, fun exp => by
    rw [den, Arg.expr]
    simp only [denList, callSem, hl, he, hf, Option.bind_eq_bind, Option.bind_some]
    rfl, ?_⟩
  intro W s
  rfl

/-- The code for the size of a field. -/
theorem size_field (o : BytesType) (sc : Scope) (f : Simplify.Field) (h : refOk o sc.arity 0 (low sc f.ty) = true) :
    ∃ e, sizeField o f = some e ∧ ∀ c b, c.opts = o → c.scope = sc → c.find f.name = some (.ref (.own (low sc f.ty)), b) →
      ∃ m', (∀ exp, (den e).plain c exp = some (.usize, m')) ∧
        ∀ env args W s v, s.vars.lookup f.name = some (.val v) → wt env ((low sc f.ty).subst args) v = true →
          SizeAgree o sc.arity env args (sizeOf v) W →
          m' W s = .ok (.usize (fieldSize env ⟨f.name, (low sc f.ty).subst args, f.id⟩ v)) s := by
  obtain ⟨cm, x, t, id⟩ := f
  simp only at h ⊢
  by_cases ht : ∃ u, t = .option u
  · obtain ⟨u, rfl⟩ := ht
    simp only [low, Build.lowerTy, refOk, Bool.and_eq_true] at h
    obtain ⟨e, he, hF⟩ := size_clos (o := o) (sc := sc) (t := u) h.2 "v"
    refine ⟨_, by simp only [sizeField, he]; rfl, ?_⟩
    intro c b hc hs hf
    obtain ⟨f, hf1, hF⟩ := hF c hc hs
    obtain ⟨m', h1, h2⟩ := call_sizeFieldOption (id := id) (asRef_var hf none) hf1
    refine ⟨m', h1, ?_⟩
    intro env args W s v hl hwt ha
    rw [h2, M.bind_ok (lookM_ok hl)]
    rcases wt_option_cases (t := (low sc u).subst args) hwt with rfl | ⟨y, rfl, hy⟩
    · rfl
    · simp only [onVal, sizeOptM, ofNat_toNat]
      exact addM_ok rfl (hF env args W s y hy (ha.mono (by simp only [Val.some.sizeOf_spec]; omega)))
  · have ht' : ∀ u, t ≠ .option u := fun u e => ht ⟨u, e⟩
    obtain ⟨es, hes, hne, ho⟩ := size_ops o sc t 0 (.var x) rfl h
    have hsf : sizeField o ⟨cm, x, t, id⟩ = some (.call .sizeField [.lit id.toNat, .closure [] [.tail (Rust.add es)]]) := by
      cases t with
      | option u => exact absurd rfl (ht' u)
      | _ => simp only [sizeField, sizeTy, hes]; rfl
    refine ⟨_, hsf, ?_⟩
    intro c b hc hs hf
    have hp1 : Place (c.clos [] [] .usize) (.var x) 1 (low sc t) (lookM x) := place_var (find_clos hf rfl)
    obtain ⟨m1, he1, hm1⟩ := ho.add hne (c := c.clos [] [] .usize) hc hs hp1
    have hf1 : (den (.closure [] [.tail (Rust.add es)])).fn c [] .usize = some (closM [] m1) :=
      fn_eq rfl (by simp) (check_eq (by simpa only [denStmts, denStmt, seqSem] using he1 _) rfl)
    refine ⟨_, call_sizeField hf1, ?_⟩
    intro env args W s v hl hwt ha
    have h1 := hm1 env args W s v (lookM_ok hl) hwt ha
    have h1' : closM [] m1 [] W s = .ok (.usize (Codegen.size env ((low sc t).subst args) v)) s := by
      have := closM_ok (xs := []) (vs := []) (s := s) h1
      exact this
    rw [addM_ok rfl h1', fieldSize_plain (not_option_low ht' args)]
    rfl

theorem marker_low (sc : Scope) (args : List Ty) : ∀ t : Simplify.Ty, Codegen.marker ((low sc t).subst args) = Rust.marker t
  | .prim p => by cases p <;> rfl
  | .nonZero t => by
    simp only [low, Build.lowerTy, Schema.Ty.subst, Codegen.marker, Rust.marker]
    exact marker_low sc args t
  | .external path name as => by
    simp only [low, Build.lowerTy]
    split
    · simp only [Schema.Ty.subst]
      split <;> rfl
    · rfl
  | .vec _ | .hashMap _ _ | .hashSet _ | .option _ | .tuple _ | .array _ _ => rfl

theorem fieldId_check {c : Ctx} (id : BitVec 32) (t : Simplify.Ty) :
    ∃ m, (den (fieldId id t)).plain.check c .fieldId = some m ∧ ∀ W s, m W s = .ok (.fieldId ⟨id, Rust.marker t⟩) s := by
  have hl := lit_check (c := c) id
  have he : (den (.const (.encoding (Rust.marker t)))).plain.check c .encoding = some (pureM (.encoding (Rust.marker t))) := by
    exact check_eq (by simp only [den, Arg.expr, constSem]) rfl
  refine ⟨_, check_eq (by
    rw [fieldId, den, Arg.expr]
    simp only [denList, callSem, hl, he, Option.bind_eq_bind, Option.bind_some]
    rfl) rfl, ?_⟩
  intro W s
  rw [M.bind_ok (v := .val (.num id.toNat)) (s' := s) rfl]
  simp only [onVal]
  rw [M.bind_ok (v := .encoding (Rust.marker t)) (s' := s) rfl]
  simp only [ofNat_toNat]
  rfl

theorem call_encField {c : Ctx} {e cl : Expr} {m : M} {g : List RVal → M} {id : FieldId} (hw : Writes c)
    (he : (den e).plain.check c .fieldId = some m) (hm : ∀ W s, m W s = .ok (.fieldId id) s)
    (hg : (den cl).fn c [.writer] .unit = some g) :
    ∃ m', (∀ exp, (den (.call .encField [w, e, cl])).plain c exp = some (.unit, m')) ∧
      ∀ W s, m' W s = g [.unit] W (s.write (encId id)) := by
  refine ⟨_, fun exp => by
    rw [den, Arg.expr]
    simp only [denList, callSem, hw.arg, he, hg, Option.bind_eq_bind, Option.bind_some]
    rfl, ?_⟩
  intro W s
  rw [M.bind_ok (hm W s)]
  rfl

/-- The execution of `encode_field_option`. -/
def encOptM (id : FieldId) (g : List RVal → M) (v : Val) : M :=
  match v with
  | .some v => (writeM (encId id)).bind fun _ => g [.unit, .val v]
  | .none => pureM .unit
  | _ => fun _ _ => .panic

theorem call_encFieldOption {c : Ctx} {e x cl : Expr} {t : Ty} {m k : M} {g : List RVal → M} {id : FieldId} (hw : Writes c)
    (he : (den e).plain.check c .fieldId = some m) (hm : ∀ W s, m W s = .ok (.fieldId id) s)
    (hx : (den x).behind c = some (.option t, k))
    (hg : (den cl).fn c [.writer, .ref (.own t)] .unit = some g) :
    ∃ m', (∀ exp, (den (.call .encFieldOption [w, e, x, cl])).plain c exp = some (.unit, m')) ∧
      ∀ W s, m' W s = k.bind (onVal (encOptM id g)) W s := by
  refine ⟨_, fun exp => by
    rw [den, Arg.expr]
    simp only [denList, callSem, hw.arg, he, hx, hg, Option.bind_eq_bind, Option.bind_some]
    rfl, ?_⟩
  intro W s
  rw [M.bind_ok (hm W s)]
  rfl

/-- The code that writes a field. -/
theorem encode_field (o : BytesType) (sc : Scope) (f : Simplify.Field) (h : refOk o sc.arity 0 (low sc f.ty) = true)
    (hn : f.name ≠ "w") :
    ∃ st, encodeField o f = some st ∧ ∀ c b, c.opts = o → c.scope = sc → Writes c →
      c.find f.name = some (.ref (.own (low sc f.ty)), b) →
      ∃ m', Runs c [st] m' ∧
        ∀ env args W s v, s.vars.lookup f.name = some (.val v) → wt env ((low sc f.ty).subst args) v = true →
          Agrees o sc.arity env args (sizeOf v) W →
          m' W s = .ok .unit (s.write (fieldBytes env ⟨f.name, (low sc f.ty).subst args, f.id⟩ v)) := by
  obtain ⟨cm, x, t, id⟩ := f
  simp only at h hn ⊢
  by_cases ht : ∃ u, t = .option u
  · obtain ⟨u, rfl⟩ := ht
    simp only [low, Build.lowerTy, refOk, Bool.and_eq_true] at h
    obtain ⟨ss, hss, ho⟩ := encode_root o sc u "v" (by decide) h.2
    refine ⟨_, by simp only [encodeField, hss]; rfl, ?_⟩
    intro c b hc hs hw hf
    obtain ⟨g, hg, hG⟩ := ho.clos (by decide) hc hs
    obtain ⟨mi, hi, hi'⟩ := fieldId_check (c := c) id u
    have hx : (den (.var x)).behind c = some (.option (low sc u), lookM x) := (place_var hf).behind (by simp [Name.var])
    obtain ⟨m', h1, h2⟩ := call_encFieldOption hw hi hi' hx hg
    refine ⟨m', Runs.semi (h1 none), ?_⟩
    intro env args W s v hl hwt ha
    rw [h2, M.bind_ok (lookM_ok hl)]
    rcases wt_option_cases (t := (low sc u).subst args) hwt with rfl | ⟨y, rfl, hy⟩
    · simp only [onVal, encOptM, pureM, fieldBytes, low, Build.lowerTy, Schema.Ty.subst, write_nil]
    · simp only [onVal, encOptM]
      rw [M.bind_ok (writeM_ok _ W s), hG env args W _ y hy (ha.mono (by simp only [Val.some.sizeOf_spec]; omega)), write_write,
        ← marker_low sc args u]
      rfl
  · have ht' : ∀ u, t ≠ .option u := fun u e => ht ⟨u, e⟩
    obtain ⟨ss, hss, ho⟩ := encode_root o sc t x hn h
    have hsf : encodeField o ⟨cm, x, t, id⟩ = some (.semi (.call .encField [w, fieldId id t, .closure ["w"] ss])) := by
      cases t with
      | option u => exact absurd rfl (ht' u)
      | _ => simp only [encodeField, hss]; rfl
    refine ⟨_, hsf, ?_⟩
    intro c b hc hs hw hf
    have hp2 : Place (c.clos ["w"] [.writer] .unit) (.var x) 1 (low sc t) (lookM x) :=
      place_var (find_clos hf (lookup_one hn))
    have hw2 : Writes (c.clos ["w"] [.writer] .unit) := ⟨false, rfl⟩
    obtain ⟨m2, hr2, hm2⟩ := ho (c.clos ["w"] [.writer] .unit) _ hc hs hw2 hp2
    have hf2 : (den (.closure ["w"] ss)).fn c [.writer] .unit = some (closM ["w"] (m2.bind fun _ => pureM .unit)) :=
      fn_eq rfl (by simp) (check_eq (hr2.all _) rfl)
    obtain ⟨mi, hi, hi'⟩ := fieldId_check (c := c) id t
    obtain ⟨m', h1, h2⟩ := call_encField hw hi hi' hf2
    refine ⟨m', Runs.semi (h1 none), ?_⟩
    intro env args W s v hl hwt ha
    rw [h2]
    have h3 := hm2 env args W { s.write (encId ⟨id, Rust.marker t⟩) with vars := bindAll ["w"] [.unit] ++ s.vars } v
      (lookM_yields ((lookup_past hn).trans hl)) hwt ha
    have h4 := M.bind_ok (k := fun _ => pureM .unit) h3
    have h5 := closM_ok (xs := ["w"]) (vs := [.unit]) (s := s.write (encId ⟨id, Rust.marker t⟩)) (h4.trans rfl)
    refine Eq.trans h5 ?_
    rw [fieldBytes_plain (not_option_low ht' args)]
    simp [St.write, Buf.encField, marker_low]

/-! ### All fields -/

/-- The variables of the fields in a context. -/
def HasFields (c : Ctx) (sc : Scope) (fs : List Simplify.Field) : Prop :=
  ∀ f, f ∈ fs → ∃ b, c.find f.name = some (.ref (.own (low sc f.ty)), b)

/-- Their values in a state. -/
def HasVals (s : St) : List Simplify.Field → List Val → Prop
  | [], [] => True
  | f :: fs, v :: vs => s.vars.lookup f.name = some (.val v) ∧ HasVals s fs vs
  | _, _ => False

theorem HasVals.write {s : St} (b : Bytes) : ∀ {fs : List Simplify.Field} {vs : List Val}, HasVals s fs vs → HasVals (s.write b) fs vs
  | [], [], _ => trivial
  | _ :: _, _ :: _, h => ⟨h.1, h.2.write b⟩

/-- The fields of the model. -/
def lowFields (sc : Scope) (args : List Ty) (fs : List Simplify.Field) : List Schema.Field :=
  fs.map fun f => ⟨f.name, (low sc f.ty).subst args, f.id⟩

theorem lowFields_eq (sc : Scope) (args : List Ty) (fs : Simplify.Fields) :
    ((Build.lowerFields sc.look sc.generics fs).subst args).fields = lowFields sc args fs.fields := by
  simp only [Build.lowerFields, Schema.Fields.subst, List.map_map, lowFields]
  rfl

/-- The code for the sizes of all fields. -/
theorem size_fields (o : BytesType) (sc : Scope) : ∀ fs : List Simplify.Field,
    (∀ f, f ∈ fs → refOk o sc.arity 0 (low sc f.ty) = true) →
    ∃ es, all (fs.map (sizeField o)) = some es ∧ ∀ c, c.opts = o → c.scope = sc → HasFields c sc fs →
      ∃ ms, operands c (denList es) = some ms ∧
        ∀ env args W s vs B, HasVals s fs vs → wtFields env (lowFields sc args fs) vs = true →
          SizeAgree o sc.arity env args B W → (∀ v, v ∈ vs → sizeOf v ≤ B) →
          Sums W s ms (Codegen.sizeFields env (lowFields sc args fs) vs)
  | [], _ => by
    refine ⟨[], rfl, fun c _ _ _ => ⟨[], rfl, ?_⟩⟩
    intro env args W s vs B hv hw _ _
    cases vs with
    | nil => simp only [lowFields, List.map_nil, Codegen.sizeFields, Sums]
    | cons => exact hv.elim
  | f :: fs, h => by
    obtain ⟨e, he, hf⟩ := size_field o sc f (h f (List.mem_cons_self ..))
    obtain ⟨es, hes, hfs⟩ := size_fields o sc fs fun g hg => h g (List.mem_cons_of_mem _ hg)
    refine ⟨e :: es, by simp only [List.map_cons, all, he, hes], ?_⟩
    intro c hc hs hv
    obtain ⟨b, hb⟩ := hv f (List.mem_cons_self ..)
    obtain ⟨m, h1, h2⟩ := hf c b hc hs hb
    obtain ⟨ms, h3, h4⟩ := hfs c hc hs fun g hg => hv g (List.mem_cons_of_mem _ hg)
    refine ⟨m :: ms, by simp [denList, operands, operand, h1, h3], ?_⟩
    intro env args W s vs B hvs hw ha hB
    cases vs with
    | nil => exact hvs.elim
    | cons v vs =>
      simp only [lowFields, List.map_cons, wtFields, Bool.and_eq_true] at hw
      rw [show lowFields sc args (f :: fs) = ⟨f.name, (low sc f.ty).subst args, f.id⟩ :: lowFields sc args fs from rfl,
        sizeFields_cons]
      exact ⟨_, _, h2 env args W s v hvs.1 hw.1 (ha.mono (hB v (List.mem_cons_self ..))),
        h4 env args W s vs B hvs.2 hw.2 ha (fun x hx => hB x (List.mem_cons_of_mem _ hx)), rfl⟩

/-- The code that writes all fields. -/
theorem encode_fields (o : BytesType) (sc : Scope) : ∀ fs : List Simplify.Field,
    (∀ f, f ∈ fs → refOk o sc.arity 0 (low sc f.ty) = true) → (∀ f, f ∈ fs → f.name ≠ "w") →
    ∃ ss, all (fs.map (encodeField o)) = some ss ∧ ∀ c, c.opts = o → c.scope = sc → Writes c → HasFields c sc fs →
      ∃ m', Runs c ss m' ∧
        ∀ env args W s vs B, HasVals s fs vs → wtFields env (lowFields sc args fs) vs = true →
          Agrees o sc.arity env args B W → (∀ v, v ∈ vs → sizeOf v ≤ B) →
          m' W s = .ok .unit (s.write (Codegen.encFields env (lowFields sc args fs) vs))
  | [], _, _ => by
    refine ⟨[], rfl, fun c _ _ _ _ => ⟨_, Runs.nil c, ?_⟩⟩
    intro env args W s vs B hv hw _ _
    cases vs with
    | nil => simp only [lowFields, List.map_nil, Codegen.encFields, pureM, write_nil]
    | cons => exact hv.elim
  | f :: fs, h, hn => by
    obtain ⟨e, he, hf⟩ := encode_field o sc f (h f (List.mem_cons_self ..)) (hn f (List.mem_cons_self ..))
    obtain ⟨es, hes, hfs⟩ := encode_fields o sc fs (fun g hg => h g (List.mem_cons_of_mem _ hg))
      fun g hg => hn g (List.mem_cons_of_mem _ hg)
    refine ⟨e :: es, by simp only [List.map_cons, all, he, hes], ?_⟩
    intro c hc hs hwr hv
    obtain ⟨b, hb⟩ := hv f (List.mem_cons_self ..)
    obtain ⟨m, h1, h2⟩ := hf c b hc hs hwr hb
    obtain ⟨m', h3, h4⟩ := hfs c hc hs hwr fun g hg => hv g (List.mem_cons_of_mem _ hg)
    refine ⟨_, h1.append h3, ?_⟩
    intro env args W s vs B hvs hw ha hB
    cases vs with
    | nil => exact hvs.elim
    | cons v vs =>
      simp only [lowFields, List.map_cons, wtFields, Bool.and_eq_true] at hw
      rw [show lowFields sc args (f :: fs) = ⟨f.name, (low sc f.ty).subst args, f.id⟩ :: lowFields sc args fs from rfl,
        encFields_cons, M.bind_ok (h2 env args W s v hvs.1 hw.1 (ha.mono (hB v (List.mem_cons_self ..)))),
        h4 env args W _ vs B (hvs.2.write _) hw.2 ha (fun x hx => hB x (List.mem_cons_of_mem _ hx)), write_write]

/-! ### Variables for fields -/

theorem typeAll_none {x : String} : ∀ {xs : List String} {ts : List RType}, x ∉ xs → (typeAll xs ts).lookup x = none
  | [], _, _ => rfl
  | _ :: _, [], _ => rfl
  | y :: ys, t :: ts, h => by
    rw [typeAll, List.lookup_append, typeAll_none fun hc => h (List.mem_cons_of_mem _ hc)]
    exact lookup_one fun e => h (e ▸ List.mem_cons_self ..)

theorem bindAll_none {x : String} : ∀ {xs : List String} {vs : List RVal}, x ∉ xs → (bindAll xs vs).lookup x = none
  | [], _, _ => rfl
  | _ :: _, [], _ => rfl
  | y :: ys, t :: ts, h => by
    rw [bindAll, List.lookup_append, bindAll_none fun hc => h (List.mem_cons_of_mem _ hc)]
    exact lookup_one fun e => h (e ▸ List.mem_cons_self ..)

/-- The pattern brings the fields into scope. -/
theorem hasFields_of {sc : Scope} : ∀ {fs : List Simplify.Field} {c : Ctx} {rest : List (String × RType × Bool)},
    (fs.map (·.name)).Nodup →
    c.vars = typeAll (fs.map (·.name)) (fs.map fun f => RType.ref (.own (low sc f.ty))) ++ rest → HasFields c sc fs
  | [], _, _, _, _ => fun f hf => nomatch hf
  | f :: fs, c, rest, hn, hv => by
    simp only [List.map_cons, List.nodup_cons] at hn
    simp only [List.map_cons, typeAll, List.append_assoc, List.singleton_append] at hv
    intro g hg
    rcases List.mem_cons.1 hg with rfl | hg
    · refine ⟨false, ?_⟩
      rw [Ctx.find, hv, List.lookup_append, typeAll_none hn.1, Option.none_or, lookup_head]
    · exact hasFields_of (fs := fs) hn.2 hv g hg

/-- The pattern binds the fields. -/
theorem hasVals_of : ∀ {fs : List Simplify.Field} {vs : List Val} {s : St} {rest : List (String × RVal)},
    (fs.map (·.name)).Nodup → vs.length = fs.length →
    s.vars = bindAll (fs.map (·.name)) (vs.map RVal.val) ++ rest → HasVals s fs vs
  | [], [], _, _, _, _, _ => trivial
  | [], _ :: _, _, _, _, hl, _ => by cases hl
  | f :: fs, [], _, _, _, hl, _ => by cases hl
  | f :: fs, v :: vs, s, rest, hn, hl, hv => by
    simp only [List.map_cons, List.nodup_cons] at hn
    simp only [List.map_cons, bindAll, List.append_assoc, List.singleton_append] at hv
    refine ⟨?_, hasVals_of hn.2 (by simpa using hl) hv⟩
    rw [hv, List.lookup_append, bindAll_none hn.1, Option.none_or, lookup_head]

theorem wtFields_length {env : Env} : ∀ {fs : List Schema.Field} {vs : List Val}, wtFields env fs vs = true → vs.length = fs.length
  | [], [], _ => rfl
  | [], _ :: _, h => by simp [wtFields] at h
  | _ :: _, [], h => by simp [wtFields] at h
  | _ :: fs, _ :: vs, h => by
    simp only [wtFields, Bool.and_eq_true] at h
    simp [wtFields_length h.2]

end Mabo.Rust
