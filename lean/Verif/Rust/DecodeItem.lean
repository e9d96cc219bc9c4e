import Verif.Rust.DecodeSem
/-!
The generated function `decode` of structs and enums: it compiles and reads what `Codegen.decDef` says.
-/
namespace Mabo.Rust
open Mabo.Buf Mabo.Codegen
open Mabo.Schema (Prim Ty Val Env FieldKind)

/-! ### One variable for each field -/

/-- The value of such a variable. -/
def slotVal : Option Val → Val
  | some v => .some v
  | none => .none

/-- The variables for the fields. -/
def slotVars (fs : List Simplify.Field) (slots : List (Option Val)) : List (String × RVal) :=
  bindAll (fs.map (·.name)) ((slots.map slotVal).map .val)

/-- Their types. -/
def slotTys (sc : Scope) : List Simplify.Field → List (String × RType × Bool)
  | [] => []
  | f :: fs => slotTys sc fs ++ [(f.name, .own (.option (low sc (Rust.fieldTy f.ty))), true)]

theorem slotVars_cons (f : Simplify.Field) (fs : List Simplify.Field) (v : Option Val) (slots : List (Option Val)) :
    slotVars (f :: fs) (v :: slots) = slotVars fs slots ++ [(f.name, .val (slotVal v))] := rfl

/-- With the variables for the fields. -/
def inSlots (c : Ctx) (sc : Scope) (fs : List Simplify.Field) : Ctx := { c with vars := slotTys sc fs ++ c.vars }

theorem inSlots_cons (c : Ctx) (sc : Scope) (f : Simplify.Field) (fs : List Simplify.Field) :
    inSlots c sc (f :: fs) = inSlots (c.push f.name (.own (.option (low sc (Rust.fieldTy f.ty)))) true) sc fs := by
  simp only [inSlots, slotTys, Ctx.push, List.append_assoc, List.singleton_append]

theorem slotTys_none {sc : Scope} {x : String} : ∀ {fs : List Simplify.Field}, x ∉ fs.map (·.name) →
    (slotTys sc fs).lookup x = none
  | [], _ => rfl
  | f :: fs, h => by
    simp only [List.map_cons, List.mem_cons, not_or] at h
    rw [slotTys, List.lookup_append, slotTys_none h.2, Option.none_or, lookup_one h.1]

theorem slotTys_find {sc : Scope} {f : Simplify.Field} : ∀ {fs : List Simplify.Field}, (fs.map (·.name)).Nodup → f ∈ fs →
    (slotTys sc fs).lookup f.name = some (.own (.option (low sc (Rust.fieldTy f.ty))), true)
  | g :: fs, hn, hf => by
    simp only [List.map_cons, List.nodup_cons] at hn
    rw [slotTys, List.lookup_append]
    rcases List.mem_cons.1 hf with rfl | hf
    · rw [slotTys_none hn.1]
      simp
    · rw [slotTys_find hn.2 hf]
      rfl

theorem setVar_past {x : String} {v : RVal} : ∀ {l l' : List (String × RVal)}, x ∉ l.map (·.1) →
    setVar x v (l ++ l') = l ++ setVar x v l'
  | [], _, _ => rfl
  | (y, u) :: l, l', h => by
    simp only [List.map_cons, List.mem_cons, not_or] at h
    simp only [List.cons_append, setVar, if_neg (fun e => h.1 e.symm : ¬ y = x), setVar_past h.2]

theorem setVar_in {x : String} {v : RVal} : ∀ {l l' : List (String × RVal)}, x ∈ l.map (·.1) →
    setVar x v (l ++ l') = setVar x v l ++ l'
  | (y, u) :: l, l', h => by
    by_cases hy : y = x
    · simp only [List.cons_append, setVar, if_pos hy]
    · simp only [List.map_cons, List.mem_cons] at h
      have h := h.resolve_left fun e => hy e.symm
      simp only [List.cons_append, setVar, if_neg hy, setVar_in h]

theorem slotVars_keys : ∀ {fs : List Simplify.Field} {slots : List (Option Val)} {x : String}, slots.length = fs.length →
    (x ∈ (slotVars fs slots).map (·.1) ↔ x ∈ fs.map (·.name))
  | [], [], _, _ => by simp [slotVars, bindAll]
  | f :: fs, v :: slots, x, h => by
    simp only [List.length_cons, Nat.add_right_cancel_iff] at h
    rw [slotVars_cons, List.map_append, List.mem_append, slotVars_keys h]
    simp [or_comm]

theorem slotVars_length : ∀ {fs : List Simplify.Field} {slots : List (Option Val)}, slots.length = fs.length →
    (slotVars fs slots).length = fs.length
  | [], [], _ => rfl
  | f :: fs, v :: slots, h => by
    simp only [List.length_cons, Nat.add_right_cancel_iff] at h
    rw [slotVars_cons, List.length_append, slotVars_length h]
    rfl

/-- An assignment. -/
theorem slotVars_set {f : Simplify.Field} {v : Val} {rest : List (String × RVal)} : ∀ {fs : List Simplify.Field}
    {slots : List (Option Val)} {i : Nat}, slots.length = fs.length → (fs.map (·.name)).Nodup → fs[i]? = some f →
    setVar f.name (.val (.some v)) (slotVars fs slots ++ rest) = slotVars fs (slots.set i (some v)) ++ rest
  | g :: fs, u :: slots, i, hl, hn, hi => by
    simp only [List.length_cons, Nat.add_right_cancel_iff] at hl
    simp only [List.map_cons, List.nodup_cons] at hn
    cases i with
    | zero =>
      simp only [List.getElem?_cons_zero, Option.some.injEq] at hi
      subst hi
      rw [slotVars_cons, List.append_assoc, setVar_past (fun h => hn.1 ((slotVars_keys hl).1 h)), List.set_cons_zero,
        slotVars_cons, List.append_assoc]
      simp [setVar, slotVal]
    | succ i =>
      simp only [List.getElem?_cons_succ] at hi
      have := slotVars_set (v := v) (rest := [(g.name, .val (slotVal u))] ++ rest) hl hn.2 hi
      rw [slotVars_cons, List.append_assoc, this, List.set_cons_succ, slotVars_cons, List.append_assoc]
  | [], _ :: _, _, hl, _, _ => by simp at hl
  | _ :: _, [], _, hl, _, _ => by simp at hl

/-! ### The variables are declared -/

theorem fieldText_iff {o : BytesType} {sc : Scope} {t : Simplify.Ty} :
    fieldText o sc t = true ↔ slotFree sc = true ∧ textOk o sc t = true := by
  simp only [fieldText, Bool.and_eq_true]

theorem fieldVar_ok {o : BytesType} {sc : Scope} {f : Simplify.Field} (ht : fieldText o sc f.ty = true) :
    ∃ ty, fieldVar o f = some (.slot f.name ty .none) ∧ ∀ c, c.opts = o → c.scope = sc →
      typed c ty = some (.option (low sc (Rust.fieldTy f.ty))) := by
  obtain ⟨hsl, ht⟩ := fieldText_iff.1 ht
  obtain ⟨e, h1, h2⟩ := text_ok o f.ty ht
  by_cases ho : ∃ t, f.ty = .option t
  · obtain ⟨t, ho⟩ := ho
    refine ⟨⟨e, .option t⟩, by simp only [fieldVar, h1, ho]; simp [← ho, h1], fun c hc hs => ?_⟩
    rw [ho] at h2 ⊢
    exact typed_ok hc hs h2
  · have hne : ∀ t, f.ty ≠ .option t := fun t h => ho ⟨t, h⟩
    refine ⟨⟨.path false ["Option"] [e], .option f.ty⟩, ?_, fun c hc hs => ?_⟩
    · unfold fieldVar
      rw [h1]
      simp only [Option.bind_eq_bind, Option.bind_some]
      cases hf : f.ty with
      | option t => exact absurd hf (hne t)
      | _ => rfl
    · have hty : Rust.fieldTy f.ty = f.ty := by
        cases hf : f.ty with
        | option t => exact absurd hf (hne t)
        | _ => rfl
      rw [hty]
      refine typed_ok (t := .option f.ty) hc hs ?_
      rw [read_one (slotFree_iff.1 hsl).1 (args := [rustOf o (low sc f.ty)]) (by simp [readTys, h2])]
      rfl

theorem none_check {c : Ctx} {t : Ty} (hv : c.scope.values "None" = false) :
    (den .none).plain.check c (.own (.option t)) = some (pureM (.val .none)) :=
  check_same (u := .own (.option t)) (by simp only [den, Arg.expr, noneSem, hv, Bool.false_eq_true, if_false])
    (same_own rfl)

theorem slots_seq {o : BytesType} {sc : Scope} : ∀ fs : List Simplify.Field,
    (∀ f, f ∈ fs → fieldText o sc f.ty = true) → ∃ ss, all (fs.map (fieldVar o)) = some ss ∧
      ∀ c, c.opts = o → c.scope = sc → ∀ rest exp t m, seqSem (denStmts rest) (inSlots c sc fs) exp = some (t, m) →
        ∃ m', seqSem (denStmts (ss ++ rest)) c exp = some (t, m') ∧
          ∀ W s, m' W s = m W { s with vars := slotVars fs (fs.map fun _ => none) ++ s.vars }
  | [], _ => ⟨[], rfl, fun c _ _ rest exp t m h => ⟨m, h, fun W s => rfl⟩⟩
  | f :: fs, ht => by
    obtain ⟨ty, h1, h2⟩ := fieldVar_ok (o := o) (ht f (List.mem_cons_self ..))
    obtain ⟨ss, h3, h4⟩ := slots_seq (o := o) fs fun g hg => ht g (List.mem_cons_of_mem _ hg)
    refine ⟨.slot f.name ty .none :: ss, by simp only [List.map_cons, all, h1, h3], ?_⟩
    intro c hc hs rest exp t m h
    rw [inSlots_cons] at h
    obtain ⟨m', h5, h6⟩ := h4 (c.push f.name (.own (.option (low sc (Rust.fieldTy f.ty)))) true) hc hs rest exp t m h
    have hn := none_check (c := c) (t := low sc (Rust.fieldTy f.ty)) (by
      rw [hs]
      exact (slotFree_iff.1 (fieldText_iff.1 (ht f (List.mem_cons_self ..))).1).2.1)
    refine ⟨_, by
      simp only [List.cons_append, denStmts, denStmt, seqSem, h2 c hc hs, hn, h5, Option.bind_eq_bind, Option.bind_some]
      rfl, ?_⟩
    intro W s
    rw [M.bind_ok (v := .val .none) (s' := s) rfl, h6]
    congr 2
    simp only [List.map_cons, slotVars_cons, List.append_assoc, List.singleton_append, slotVal]

/-! ### The arms of the loop -/

/-- What an arm does: read a value and assign it. -/
def armOut (x : String) (s : St) : Res Val → Out
  | .ok v r => .ok .unit { s with input := r, vars := setVar x (.val (.some v)) s.vars }
  | .err e => .ret e
  | .panic => .panic
  | .hang => .hang

theorem arm_ok {o : BytesType} {sc : Scope} (hp : slotFree sc = true) {x : String} {T : Ty} {e : Expr}
    (h : ReadOk o sc true T e) {c : Ctx} (hc : c.opts = o) (hs : c.scope = sc) (hr : Reader c)
    (hf : c.find x = some (.own (.option T), true)) (exp : Option RType) :
    ∃ m, (den (.assign x (.wrap .some (.try e)))).plain c exp = some (.unit, m) ∧
      ∀ dext args W s, DecAgree o sc.arity dext args W → m W s = armOut x s (decTy dext true (T.subst args) s.input) := by
  obtain ⟨u, m, h1, h2, h3⟩ := try_ok h hc hs hr
  have hv : c.scope.values "Some" = false := by rw [hs]; exact (slotFree_iff.1 hp).2.2
  have hk : (den (.wrap .some (.try e))).plain.check c (.own (.option T)) =
      some (m.bind (onVal fun v => pureM (.val (.some v)))) := by
    refine check_same (u := .own (.option u)) ?_ (by rw [hc]; exact same_own (by rw [rustOf, rustOf, h2]))
    rw [den, Arg.expr]
    simp only [wrapSem, hv, expSome, h1, Bool.false_eq_true, if_false, Option.bind_eq_bind, Option.bind_some]
  refine ⟨_, by
    rw [den, Arg.expr]
    simp only [assignSem, hf, hk, if_true, Option.bind_eq_bind, Option.bind_some]
    rfl, ?_⟩
  intro dext args W s ha
  have h4 := h3 dext args W s ha
  cases hd : decTy dext true (T.subst args) s.input <;> simp only [hd] at h4 <;>
    simp only [M.bind, h4, Out.bind, onVal, pureM, armOut]

/-- `decode_skip(r, id.encoding)?` -/
def skipOut (s : St) : Res Unit → Out
  | .ok _ r => .ok .unit { s with input := r }
  | .err e => .ret e
  | .panic => .panic
  | .hang => .hang

theorem skip_ok {c : Ctx} (hr : Reader c) {b : Bool} (hf : c.find "id" = some (.fieldId, b)) (exp : Option RType) :
    ∃ m, (den (.try (.call .decSkip [r, .member (.var "id") .encoding]))).plain c exp = some (.unit, m) ∧
      ∀ W s id, s.vars.lookup "id" = some (.fieldId id) → m W s = skipOut s (Buf.decSkip id.encoding s.input) := by
  obtain ⟨t, ht⟩ := hr.ret
  have hv : (den (.var "id")).plain c none = some (.fieldId, lookM "id") := by
    rw [den, Arg.expr]
    simp only [varSem, hf, Option.bind_eq_bind, Option.bind_some]
    rfl
  have hm : (den (.member (.var "id") .encoding)).plain.check c .encoding = some ((lookM "id").bind fun v =>
      match v with
      | .fieldId i => pureM (.encoding i.encoding)
      | _ => fun _ _ => .panic) := by
    refine check_same (u := .encoding) ?_ rfl
    rw [den, Arg.expr]
    simp only [memberSem, hv, Option.bind_eq_bind, Option.bind_some]
    rfl
  have hcall : ∃ m, (∀ exp, (den (.call .decSkip [r, .member (.var "id") .encoding])).plain c exp = some (.result .unit, m)) ∧
      ∀ W s id, s.vars.lookup "id" = some (.fieldId id) →
        m W s = readM (fun _ s => (Buf.decSkip id.encoding s.input).map fun _ => .unit) W s := by
    refine ⟨_, fun exp => by
      rw [den, Arg.expr]
      simp only [denList, callSem, hr.arg, hm, Option.bind_eq_bind, Option.bind_some]
      rfl, ?_⟩
    intro W s id hl
    have hlook : lookM "id" W s = .ok (.fieldId id) s := by simp only [lookM, hl]
    simp only [M.bind, hlook, Out.bind, pureM]
  obtain ⟨mc, h1, h2⟩ := hcall
  refine ⟨_, by
    rw [den, Arg.expr]
    simp only [trySem, h1, ht, Option.bind_eq_bind, Option.bind_some]
    rfl, ?_⟩
  intro W s id hl
  simp only [M.bind, h2 W s id hl, readM]
  cases Buf.decSkip id.encoding s.input <;> rfl

/-- The arms for the fields, and the one for unknown fields. -/
theorem arms_num {c : Ctx} {exp : Option RType} {e : Elab} {mw : M} (hw : e c exp = some (.unit, mw)) :
    ∀ {fs : List Simplify.Field} {es : List Elab} {ms : List M}, es.length = fs.length → ms.length = fs.length →
      (∀ (i : Nat) x m, es[i]? = some x → ms[i]? = some m → x c exp = some (.unit, m)) →
      ∃ k, numArms c exp ((fs.zip es).map (fun p => (Pat.lit p.1.id.toNat, p.2)) ++ [(.wild, e)]) = some (.unit, k) ∧
        ∀ id : BitVec 32, k id.toNat = ((fs.findIdx? fun f => f.id == id).bind fun i => ms[i]?).getD mw
  | [], [], [], _, _, _ => ⟨fun _ => mw, by
      simp only [List.zip_nil_left, List.map_nil, List.nil_append, numArms, hw, Option.bind_eq_bind, Option.bind_some],
      fun id => rfl⟩
  | f :: fs, x :: es, m :: ms, h1, h2, h3 => by
    obtain ⟨k, hk, hk'⟩ := arms_num hw (fs := fs) (es := es) (ms := ms) (by simpa using h1) (by simpa using h2)
      fun i x m hx hm => h3 (i + 1) x m hx hm
    have hx := h3 0 x m rfl rfl
    refine ⟨_, by
      simp only [List.zip_cons_cons, List.map_cons, List.cons_append, numArms, hx, hk, joinTy, RType.same, f.id.isLt, if_true,
        Option.bind_eq_bind, Option.bind_some]
      rfl, ?_⟩
    intro id
    rw [List.findIdx?_cons]
    by_cases he : f.id = id
    · subst he
      simp
    · have hne : id.toNat ≠ f.id.toNat := fun h => he (BitVec.eq_of_toNat_eq h.symm)
      have hb : (f.id == id) = false := by simpa using he
      simp only [hb, if_neg hne, hk']
      cases fs.findIdx? fun f => f.id == id <;> simp
  | [], _ :: _, _, h1, _, _ => by simp at h1
  | [], [], _ :: _, _, h2, _ => by simp at h2
  | _ :: _, [], _, h1, _, _ => by simp at h1
  | _ :: _, _ :: _, [], _, h2, _ => by simp at h2

theorem fieldTy_low {sc : Scope} (args : List Ty) (t : Simplify.Ty) :
    Codegen.fieldTy ((low sc t).subst args) = (low sc (Rust.fieldTy t)).subst args := by
  by_cases ho : ∃ u, t = .option u
  · obtain ⟨u, rfl⟩ := ho
    simp only [low, Build.lowerTy, Ty.subst, Codegen.fieldTy, Rust.fieldTy]
  · have hne : ∀ u, t ≠ .option u := fun u h => ho ⟨u, h⟩
    have h1 : Rust.fieldTy t = t := by
      cases t with
      | option u => exact absurd rfl (hne u)
      | _ => rfl
    rw [h1]
    have h2 := not_option_low (sc := sc) hne args
    cases h : (low sc t).subst args with
    | option u => exact absurd h (h2 u)
    | _ => rfl

theorem fieldArm_ok {o : BytesType} {sc : Scope} (hp : sc.values "Ok" = false) {f : Simplify.Field}
    (h : fieldGood o sc f = true) :
    ∃ e, fieldArm o f = some (.mk (.lit f.id.toNat) (.assign f.name (.wrap .some (.try e)))) ∧
      ReadOk o sc true (low sc (Rust.fieldTy f.ty)) e := by
  obtain ⟨_, ht, _, hd⟩ := fieldGood_iff.1 h
  have ht := (fieldText_iff.1 ht).2
  have ht' : textOk o sc (Rust.fieldTy f.ty) = true := by
    cases hf : f.ty with
    | option t => rw [hf, textOk, Bool.and_eq_true] at ht; exact ht.2
    | _ => rw [hf] at ht; exact ht
  have hd' : decOk o sc.arity (low sc (Rust.fieldTy f.ty)) = true := by
    cases hf : f.ty with
    | option t => rw [hf, low, Build.lowerTy, decOk] at hd; exact hd
    | _ => rw [hf] at hd; exact hd
  obtain ⟨e, h1, h2⟩ := decode_ty o hp _ true ht' hd'
  exact ⟨e, by simp only [fieldArm, h1]; rfl, h2⟩

theorem denArms_append : ∀ a b : List Arm, denArms (a ++ b) = denArms a ++ denArms b
  | [], _ => rfl
  | .mk p e :: a, b => by simp only [List.cons_append, denArms, denArms_append a b]

theorem arms_dec {o : BytesType} {sc : Scope} (hp : sc.values "Ok" = false) : ∀ fs : List Simplify.Field,
    (∀ f, f ∈ fs → fieldGood o sc f = true) → ∃ arms, all (fs.map (fieldArm o)) = some arms ∧
      ∀ c exp, c.opts = o → c.scope = sc → Reader c →
        (∀ f, f ∈ fs → c.find f.name = some (.own (.option (low sc (Rust.fieldTy f.ty))), true)) →
        ∃ (es : List Elab) (ms : List M), denArms arms = (fs.zip es).map (fun p => (Pat.lit p.1.id.toNat, p.2)) ∧ es.length = fs.length ∧
          ms.length = fs.length ∧ (∀ (i : Nat) x m, es[i]? = some x → ms[i]? = some m → x c exp = some (.unit, m)) ∧
          ∀ (i : Nat) f m, fs[i]? = some f → ms[i]? = some m → ∀ dext args W s, DecAgree o sc.arity dext args W →
            m W s = armOut f.name s (decTy dext true ((low sc (Rust.fieldTy f.ty)).subst args) s.input)
  | [], _ => ⟨[], rfl, fun c exp _ _ _ _ => ⟨[], [], rfl, rfl, rfl, fun i x m h => by simp at h, fun i f m h => by simp at h⟩⟩
  | f :: fs, hg => by
    obtain ⟨e, h1, h2⟩ := fieldArm_ok hp (hg f (List.mem_cons_self ..))
    obtain ⟨arms, h3, h4⟩ := arms_dec (o := o) hp fs fun g hm => hg g (List.mem_cons_of_mem _ hm)
    refine ⟨.mk (.lit f.id.toNat) (.assign f.name (.wrap .some (.try e))) :: arms, by simp only [List.map_cons, all, h1, h3], ?_⟩
    intro c exp hc hs hr hf
    obtain ⟨m, h5, h6⟩ := arm_ok (fieldText_iff.1 (fieldGood_iff.1 (hg f (List.mem_cons_self ..))).2.1).1 h2 hc hs hr (hf f (List.mem_cons_self ..)) exp
    obtain ⟨es, ms, h7, h8, h9, h10, h11⟩ := h4 c exp hc hs hr fun g hm => hf g (List.mem_cons_of_mem _ hm)
    refine ⟨(den (.assign f.name (.wrap .some (.try e)))).plain :: es, m :: ms, by
      simp only [denArms, h7, List.zip_cons_cons, List.map_cons], by simp [h8], by simp [h9], ?_, ?_⟩
    · intro i x m' hx hm
      cases i with
      | zero =>
        simp only [List.getElem?_cons_zero, Option.some.injEq] at hx hm
        subst hx hm
        exact h5
      | succ i => exact h10 i x m' hx hm
    · intro i g m' hx hm
      cases i with
      | zero =>
        simp only [List.getElem?_cons_zero, Option.some.injEq] at hx hm
        subst hx hm
        exact h6
      | succ i => exact h11 i g m' hx hm

/-! ### One round of the loop -/

/-- One round, as in `Codegen.fieldLoop`. -/
def roundOut (dec : Ty → Dec Val) (lfs : List Schema.Field) (fs : List Simplify.Field) (slots : List (Option Val))
    (base : List (String × RVal)) (s : St) : Out :=
  match decId s.input with
  | .ok id r =>
    if id.value = BitVec.ofNat 32 endMarker then .brk { s with input := r }
    else
      match lfs.findIdx? (fun f => f.id == id.value) with
      | some i =>
        match lfs[i]? with
        | some f =>
          match dec (Codegen.fieldTy f.ty) r with
          | .ok v r => .ok .unit { s with input := r, vars := slotVars fs (slots.set i (some v)) ++ base }
          | .err e => .ret e
          | .panic => .panic
          | .hang => .hang
        | none => .panic
      | none => skipOut { s with input := r } (Buf.decSkip id.encoding r)
  | .err e => .ret e
  | .panic => .panic
  | .hang => .hang

/-- The body of the loop. -/
def loopBody (arms : List Arm) : List Stmt :=
  [.bind "id" (.try (.call .decId [r])),
    .tail (.match (.member (.var "id") .value)
      (.mk (.const .endMarker) .break :: arms ++ [.mk .wild (.try (.call .decSkip [r, .member (.var "id") .encoding]))]))]

theorem decId_try {c : Ctx} (hr : Reader c) :
    ∃ m, (den (.try (.call .decId [r]))).plain c none = some (.fieldId, m) ∧ ∀ W s, m W s =
      match decId s.input with
      | .ok id r => .ok (.fieldId id) { s with input := r }
      | .err e => .ret e
      | .panic => .panic
      | .hang => .hang := by
  obtain ⟨t, ht⟩ := hr.ret
  have h1 : (den (.call .decId [r])).plain c none =
      some (.result .fieldId, readM fun _ s => (Buf.decId s.input).map .fieldId) := by
    rw [den, Arg.expr]
    simp only [denList, callSem, hr.arg, Option.bind_eq_bind, Option.bind_some]
  refine ⟨_, by
    rw [den, Arg.expr]
    simp only [trySem, Option.map_none, h1, ht, Option.bind_eq_bind, Option.bind_some]
    rfl, ?_⟩
  intro W s
  simp only [M.bind, readM]
  cases decId s.input <;> rfl

theorem endMarker_iff (id : BitVec 32) : id.toNat = Buf.endMarker ↔ id = BitVec.ofNat 32 endMarker := by
  constructor
  · intro h
    exact BitVec.eq_of_toNat_eq (by rw [h]; rfl)
  · rintro rfl
    rfl

theorem leave_top {s : St} {p : String × RVal} {l : List (String × RVal)} {n : Nat} (hv : s.vars = p :: l) (hn : l.length = n) :
    leave n s = { s with vars := l } := by
  subst hn
  simp only [leave, hv, List.length_cons]
  rw [show l.length + 1 - l.length = 1 by omega]
  rfl

theorem body_ok {o : BytesType} {sc : Scope} (hp : sc.values "Ok" = false) {fs : List Simplify.Field}
    (hg : ∀ f, f ∈ fs → fieldGood o sc f = true) (hn : (fs.map (·.name)).Nodup) :
    ∃ arms, all (fs.map (fieldArm o)) = some arms ∧ ∀ c, c.opts = o → c.scope = sc → Reader c → c.inLoop = true →
      (∀ f, f ∈ fs → c.find f.name = some (.own (.option (low sc (Rust.fieldTy f.ty))), true)) →
      ∃ mb, seqSem (denStmts (loopBody arms)) c (some .unit) = some (.unit, mb) ∧
        ∀ dext args W s slots base, DecAgree o sc.arity dext args W → s.vars = slotVars fs slots ++ base →
          slots.length = fs.length →
          inBlock mb W s = roundOut (decTy dext true) (lowFields sc args fs) fs slots base s := by
  obtain ⟨arms, h1, h2⟩ := arms_dec (o := o) hp fs hg
  refine ⟨arms, h1, ?_⟩
  intro c hc hs hr hloop hf
  have hid : ∀ f, f ∈ fs → f.name ≠ "id" := fun f hm => (fieldGood_iff.1 (hg f hm)).1.2.2.2
  -- with the variable `id`
  have hr' : Reader (c.push "id" .fieldId false) := ⟨by
    obtain ⟨b, h⟩ := hr.var
    exact ⟨b, h⟩, hr.ret⟩
  have hfi : (c.push "id" .fieldId false).find "id" = some (.fieldId, false) := rfl
  obtain ⟨es, ms, h3, h4, h5, h6, h7⟩ := h2 (c.push "id" .fieldId false) (some .unit) hc hs hr' fun f hm => by
    rw [← hf f hm]
    exact lookup_past (hid f hm)
  obtain ⟨mw, h8, h9⟩ := skip_ok hr' hfi (some .unit)
  obtain ⟨k, h10, h11⟩ := arms_num (fs := fs) h8 h4 h5 h6
  obtain ⟨mi, h12, h13⟩ := decId_try hr
  have hbr : (den .break).plain (c.push "id" .fieldId false) (some .unit) = some (.never, fun _ s => .brk s) := by
    rw [den, Arg.expr]
    simp only [breakSem, Ctx.push, hloop, if_true]
  have hmem : (den (.member (.var "id") .value)).plain (c.push "id" .fieldId false) none = some (.u32, (lookM "id").bind fun v =>
      match v with
      | .fieldId i => pureM (.val (.num i.value.toNat))
      | _ => fun _ _ => .panic) := by
    have hv : (den (.var "id")).plain (c.push "id" .fieldId false) none = some (.fieldId, lookM "id") := by
      rw [den, Arg.expr]
      simp only [varSem, hfi, Option.bind_eq_bind, Option.bind_some]
      rfl
    rw [den, Arg.expr]
    simp only [memberSem, hv, Option.bind_eq_bind, Option.bind_some]
    rfl
  have harms : numArms (c.push "id" .fieldId false) (some .unit)
      (denArms (.mk (.const .endMarker) .break :: arms ++ [.mk .wild (.try (.call .decSkip [r, .member (.var "id") .encoding]))])) =
        some (.unit, fun n => if n = Buf.endMarker then fun _ s => .brk s else k n) := by
    rw [List.cons_append, denArms, denArms_append, h3]
    simp only [denArms, numArms, hbr, h10, joinTy, Option.bind_eq_bind, Option.bind_some]
  have hmatch : ∃ m, (den (.match (.member (.var "id") .value)
      (.mk (.const .endMarker) .break :: arms ++ [.mk .wild (.try (.call .decSkip [r, .member (.var "id") .encoding]))]))).plain
        (c.push "id" .fieldId false) (some .unit) = some (.unit, m) ∧ ∀ W s id, s.vars.lookup "id" = some (.fieldId id) →
          m W s = if id.value.toNat = Buf.endMarker then .brk s else k id.value.toNat W s := by
    refine ⟨_, by
      rw [den, Arg.expr]
      simp only [matchSem, hmem, RType.u32, harms, Option.bind_eq_bind, Option.bind_some]
      rfl, ?_⟩
    intro W s id hl
    have hlook : lookM "id" W s = .ok (.fieldId id) s := by simp only [lookM, hl]
    simp only [M.bind, hlook, Out.bind, pureM, onVal]
    split <;> rfl
  obtain ⟨mm, h14, h15⟩ := hmatch
  refine ⟨_, by
    simp only [loopBody, denStmts, denStmt, seqSem, h12, h14, Option.bind_eq_bind, Option.bind_some]
    rfl, ?_⟩
  intro dext args W s slots base ha hv hl
  have h16 := h13 W s
  simp only [inBlock, M.bind, h16, roundOut]
  cases hd : decId s.input with
  | err e => rfl
  | panic => rfl
  | hang => rfl
  | ok id r' =>
    simp only [Out.bind]
    have h17 := h15 W { s with input := r', vars := ("id", .fieldId id) :: s.vars } id rfl
    rw [h17]
    by_cases hend : id.value.toNat = Buf.endMarker
    · rw [if_pos hend, if_pos ((endMarker_iff _).1 hend)]
      simp only
      rw [leave_top (p := ("id", .fieldId id)) (l := s.vars) rfl rfl]
    · rw [if_neg hend, if_neg (fun h => hend ((endMarker_iff _).2 h)), h11]
      have hidx : (lowFields sc args fs).findIdx? (fun f => f.id == id.value) = fs.findIdx? fun f => f.id == id.value := by
        rw [lowFields, List.findIdx?_map]
        rfl
      rw [hidx]
      cases hi : fs.findIdx? (fun f => f.id == id.value) with
      | none =>
        simp only [Option.bind_none, Option.getD_none]
        rw [h9 W _ id rfl]
        cases hk : Buf.decSkip id.encoding r' with
        | ok v r2 =>
          simp only [skipOut, hk]
          rw [leave_top (p := ("id", .fieldId id)) (l := s.vars) rfl rfl]
        | err e => simp only [skipOut, hk]
        | panic => simp only [skipOut, hk]
        | hang => simp only [skipOut, hk]
      | some i =>
        have hlt : i < fs.length := (List.findIdx?_eq_some_iff_getElem.1 hi).1
        have hfi : fs[i]? = some fs[i] := List.getElem?_eq_getElem hlt
        have hmi : ms[i]? = some (ms[i]'(by omega)) := List.getElem?_eq_getElem (by omega)
        have hfl : (lowFields sc args fs)[i]? = some ⟨fs[i].name, (low sc fs[i].ty).subst args, fs[i].id⟩ := by
          rw [lowFields, List.getElem?_map, hfi]
          rfl
        simp only [Option.bind_some, hmi, Option.getD_some, hfl, fieldTy_low]
        rw [h7 i _ _ hfi hmi dext args W _ ha]
        cases hk : decTy dext true ((low sc (Rust.fieldTy fs[i].ty)).subst args) r' with
        | ok v r2 =>
          have hset : setVar fs[i].name (.val (.some v)) (("id", .fieldId id) :: s.vars) =
              ("id", .fieldId id) :: (slotVars fs (slots.set i (some v)) ++ base) := by
            rw [hv, setVar, if_neg (fun h => hid _ (List.mem_of_getElem? hfi) h.symm), slotVars_set hl hn hfi]
          simp only [armOut, hk, hset]
          rw [leave_top (p := ("id", .fieldId id)) (l := slotVars fs (slots.set i (some v)) ++ base) rfl (by
            rw [hv, List.length_append, List.length_append, slotVars_length hl, slotVars_length (by simpa using hl)])]
        | err e => simp only [armOut, hk]
        | panic => simp only [armOut, hk]
        | hang => simp only [armOut, hk]

/-! ### The loop -/

/-- The loop ends as the model says. -/
def loopOut (fs : List Simplify.Field) (base : List (String × RVal)) (s : St) : Res (List (Option Val)) → Out
  | .ok slots r => .ok .unit { s with input := r, vars := slotVars fs slots ++ base }
  | .err e => .ret e
  | .panic => .panic
  | .hang => .hang

theorem fieldLoop_succ (dec : Ty → Dec Val) (fs : List Schema.Field) (n : Nat) (slots : List (Option Val)) (r : Bytes) :
    fieldLoop dec fs (n + 1) slots r = (decId r).bind fun id r =>
      if id.value = BitVec.ofNat 32 endMarker then .ok slots r
      else
        match fs.findIdx? (fun f => f.id == id.value) with
        | some i =>
          match fs[i]? with
          | some f => (dec (Codegen.fieldTy f.ty) r).bind fun v r => fieldLoop dec fs n (slots.set i (some v)) r
          | none => .panic
        | none => (decSkip id.encoding r).bind fun _ r => fieldLoop dec fs n slots r := rfl

theorem rounds_ok {mb : M} {W : World} {dec : Ty → Dec Val} (hl : ∀ t, Local (dec t)) {lfs : List Schema.Field}
    {fs : List Simplify.Field} {base : List (String × RVal)}
    (hb : ∀ s slots, s.vars = slotVars fs slots ++ base → slots.length = fs.length →
      mb W s = roundOut dec lfs fs slots base s) :
    ∀ (n : Nat) (slots : List (Option Val)) (s : St), s.vars = slotVars fs slots ++ base → slots.length = fs.length →
      s.input.length < n → rounds mb W n s = some (loopOut fs base s (fieldLoop dec lfs n slots s.input))
  | 0, _, _, _, _, hlt => absurd hlt (by omega)
  | n + 1, slots, s, hv, hlen, hlt => by
    rw [rounds, hb s slots hv hlen, fieldLoop_succ, roundOut]
    cases hd : decId s.input with
    | err e => rfl
    | panic => rfl
    | hang => rfl
    | ok id r1 =>
      have hc := decId_consumes hd
      simp only [Res.bind_ok]
      by_cases hend : id.value = BitVec.ofNat 32 endMarker
      · rw [if_pos hend, if_pos hend]
        simp only [loopOut]
        rw [← hv]
      · rw [if_neg hend, if_neg hend]
        cases hi : lfs.findIdx? (fun f => f.id == id.value) with
        | none =>
          simp only
          cases hk : Buf.decSkip id.encoding r1 with
          | ok v r2 =>
            have := (decSkip_local _).suffix hk
            simp only [skipOut, Res.bind_ok]
            rw [rounds_ok hl hb n slots { s with input := r2 } hv hlen (by simp only; omega)]
            rfl
          | err e => rfl
          | panic => rfl
          | hang => rfl
        | some i =>
          simp only
          cases hfi : lfs[i]? with
          | none => rfl
          | some f =>
            simp only
            cases hk : dec (Codegen.fieldTy f.ty) r1 with
            | ok v r2 =>
              have := (hl _).suffix hk
              simp only [Res.bind_ok]
              rw [rounds_ok hl hb n (slots.set i (some v)) { s with input := r2, vars := slotVars fs (slots.set i (some v)) ++ base }
                rfl (by simpa using hlen) (by simp only; omega)]
              rfl
            | err e => rfl
            | panic => rfl
            | hang => rfl

theorem rounds_more {m : M} {W : World} : ∀ {n k : Nat} {s : St} {out : Out}, rounds m W n s = some out → n ≤ k →
    rounds m W k s = some out
  | 0, _, _, _, h, _ => by cases h
  | n + 1, 0, _, _, _, hk => absurd hk (by omega)
  | n + 1, k + 1, s, out, h, hk => by
    rw [rounds] at h ⊢
    cases hm : m W s with
    | ok v s' =>
      rw [hm] at h
      exact rounds_more h (by omega)
    | _ => rw [hm] at h; exact h

theorem loopM_eq {m : M} {W : World} {n : Nat} {s : St} {out : Out} (h : rounds m W n s = some out) : loopM m W s = out := by
  have hex : ∃ o n, rounds m W n s = some o := ⟨out, n, h⟩
  rw [loopM, dif_pos hex]
  obtain ⟨k, hk⟩ := hex.choose_spec
  have h1 := rounds_more h (Nat.le_max_left n k)
  have h2 := rounds_more hk (Nat.le_max_right n k)
  rw [h1] at h2
  exact (Option.some.inj h2).symm

/-! ### The value is built -/

/-- The value of one field. -/
def assignOut (kind : FieldKind) (f : Simplify.Field) (option : Bool) (slot : Option Val) (s : St) : Out :=
  match option, slot with
  | true, slot => .ok (.val (slotVal slot)) s
  | false, some v => .ok (.val v) s
  | false, none => .ret (.missingField f.id.toNat (if kind = .named then some f.name else none))

theorem isOption_low {sc : Scope} {t : Simplify.Ty} (ht : ∀ u, t ≠ .option u) (args : List Ty) :
    isOption ((low sc t).subst args) = false := by
  have h := not_option_low (sc := sc) ht args
  cases he : (low sc t).subst args with
  | option u => exact absurd he (h u)
  | _ => rfl

theorem assign_ok {o : BytesType} {sc : Scope} (hp : slotFree sc = true) (kind : FieldKind) {f : Simplify.Field} {c : Ctx}
    (hc : c.opts = o) (hs : c.scope = sc) (hr : Reader c)
    (hf : c.find f.name = some (.own (.option (low sc (Rust.fieldTy f.ty))), true)) :
    ∃ m, (den (fieldAssign kind f)).plain.check c (.own (low sc f.ty)) = some m ∧
      ∀ args W s slot, s.vars.lookup f.name = some (.val (slotVal slot)) →
        m W s = assignOut kind f (isOption ((low sc f.ty).subst args)) slot s := by
  have hv : ∀ exp, (den (.var f.name)).plain c exp = some (.own (.option (low sc (Rust.fieldTy f.ty))), lookM f.name) := by
    intro exp
    rw [den, Arg.expr]
    simp only [varSem, hf, Option.bind_eq_bind, Option.bind_some]
    rfl
  by_cases ho : ∃ t, f.ty = .option t
  · obtain ⟨t, ho⟩ := ho
    have he : fieldAssign kind f = .var f.name := by simp only [fieldAssign, ho]
    refine ⟨lookM f.name, ?_, ?_⟩
    · rw [he]
      refine check_same (hv _) (same_own ?_)
      rw [ho]
      rfl
    · intro args W s slot hl
      rw [ho]
      simp only [low, Build.lowerTy, Ty.subst, isOption, assignOut, lookM, hl]
  · have hne : ∀ t, f.ty ≠ .option t := fun t h => ho ⟨t, h⟩
    have hty : Rust.fieldTy f.ty = f.ty := by
      cases hf : f.ty with
      | option t => exact absurd hf (hne t)
      | _ => rfl
    have he : fieldAssign kind f =
        .try (.method (.var f.name) .okOr [.missing f.id.toNat (if kind = .named then some f.name else none)]) := by
      unfold fieldAssign
      cases hf : f.ty with
      | option t => exact absurd hf (hne t)
      | _ => rfl
    rw [hty] at hv
    have hval : c.scope.values (if (if kind = FieldKind.named then some f.name else none).isSome then "Some" else "None") =
        false := by
      rw [hs]
      cases kind
      · exact (slotFree_iff.1 hp).2.2
      · exact (slotFree_iff.1 hp).2.1
      · exact (slotFree_iff.1 hp).2.1
    have hmiss : (den (.missing f.id.toNat (if kind = .named then some f.name else none))).plain.check c .error =
        some (pureM (.error (.missingField f.id.toNat (if kind = .named then some f.name else none)))) := by
      refine check_same (u := .error) ?_ rfl
      rw [den, Arg.expr]
      simp only [missingSem, hval, Bool.false_eq_true, if_false, f.id.isLt, if_true]
    obtain ⟨t, ht⟩ := hr.ret
    have hmeth : ∃ m, (∀ exp, (den (.method (.var f.name) .okOr
        [.missing f.id.toNat (if kind = .named then some f.name else none)])).plain c exp =
          some (.result (.own (low sc f.ty)), m)) ∧
        ∀ W s slot, s.vars.lookup f.name = some (.val (slotVal slot)) → m W s =
          match slot with
          | some v => .ok (.ok (.val v)) s
          | none => .ok (.fail (.missingField f.id.toNat (if kind = .named then some f.name else none))) s := by
      refine ⟨_, fun exp => by
        rw [den, Arg.expr]
        simp only [methodSem, denList, hv, RType.strip, hmiss, Option.bind_eq_bind, Option.bind_some]
        rfl, ?_⟩
      intro W s slot hl
      have hlook : lookM f.name W s = .ok (.val (slotVal slot)) s := by simp only [lookM, hl]
      simp only [M.bind, hlook, Out.bind, onVal, pureM]
      cases slot <;> rfl
    obtain ⟨mm, h1, h2⟩ := hmeth
    refine ⟨_, by
      rw [he]
      exact check_same (u := .own (low sc f.ty)) (by
        rw [den, Arg.expr]
        simp only [trySem, h1, ht, Option.bind_eq_bind, Option.bind_some]
        rfl) (same_own rfl), ?_⟩
    intro args W s slot hl
    rw [isOption_low hne]
    simp only [M.bind, h2 W s slot hl]
    cases slot <;> rfl

theorem assigns_eq (kind : FieldKind) (f : Schema.Field) (fs : List Schema.Field) (s : Option Val) (ss : List (Option Val)) :
    assigns kind (f :: fs) (s :: ss) =
      match isOption f.ty, s with
      | true, none => (assigns kind fs ss).map (Val.none :: ·)
      | true, some v => (assigns kind fs ss).map (Val.some v :: ·)
      | false, some v => (assigns kind fs ss).map (v :: ·)
      | false, none => .error (.missingField f.id.toNat (if kind = .named then some f.name else none)) := rfl

theorem fieldLoop_length {dec : Ty → Dec Val} {fs : List Schema.Field} : ∀ {n : Nat} {slots slots' : List (Option Val)} {r r' : Bytes},
    fieldLoop dec fs n slots r = .ok slots' r' → slots'.length = slots.length
  | 0, _, _, _, _, h => by cases h
  | n + 1, slots, slots', r, r', h => by
    rw [fieldLoop_succ] at h
    obtain ⟨id, r1, h1, h2⟩ := Res.bind_eq_ok.1 h
    by_cases he : id.value = BitVec.ofNat 32 endMarker
    · rw [if_pos he] at h2
      injection h2 with h2
      rw [← h2]
    · rw [if_neg he] at h2
      cases hi : fs.findIdx? (fun f => f.id == id.value) with
      | none =>
        simp only [hi] at h2
        obtain ⟨_, r2, _, h3⟩ := Res.bind_eq_ok.1 h2
        exact fieldLoop_length h3
      | some i =>
        simp only [hi] at h2
        cases hf : fs[i]? with
        | none => simp [hf] at h2
        | some f =>
          simp only [hf] at h2
          obtain ⟨v, r2, _, h3⟩ := Res.bind_eq_ok.1 h2
          rw [fieldLoop_length h3, List.length_set]

theorem assigns_cons (kind : FieldKind) (sc : Scope) (args : List Ty) (f : Simplify.Field) (fs : List Simplify.Field)
    (slot : Option Val) (slots : List (Option Val)) (W : World) (s : St) (m : M) (ms : List M) (k : List Val → M)
    (hm : m W s = assignOut kind f (isOption ((low sc f.ty).subst args)) slot s)
    (hms : ∀ k, valuesM ms k W s =
      match assigns kind (lowFields sc args fs) slots with
      | .ok vs => k vs W s
      | .error e => .ret e) :
    valuesM (m :: ms) k W s =
      match assigns kind (lowFields sc args (f :: fs)) (slot :: slots) with
      | .ok vs => k vs W s
      | .error e => .ret e := by
  show (m W s).bind _ = _
  rw [hm]
  have hlow : lowFields sc args (f :: fs) = ⟨f.name, (low sc f.ty).subst args, f.id⟩ :: lowFields sc args fs := rfl
  rw [hlow, assigns_eq]
  cases ho : isOption ((low sc f.ty).subst args) with
  | true =>
    have h1 := hms fun vs => k (slotVal slot :: vs)
    cases slot with
    | none =>
      simp only [assignOut, Out.bind, onVal]
      rw [h1]
      cases assigns kind (lowFields sc args fs) slots <;> rfl
    | some v =>
      simp only [assignOut, Out.bind, onVal]
      rw [h1]
      cases assigns kind (lowFields sc args fs) slots <;> rfl
  | false =>
    cases slot with
    | none => rfl
    | some v =>
      have h1 := hms fun vs => k (v :: vs)
      simp only [assignOut, Out.bind, onVal]
      rw [h1]
      cases assigns kind (lowFields sc args fs) slots <;> rfl

theorem assigns_ok {o : BytesType} {sc : Scope} (kind : FieldKind) {c : Ctx}
    (hc : c.opts = o) (hs : c.scope = sc) (hr : Reader c) : ∀ fs : List Simplify.Field,
    (∀ f, f ∈ fs → slotFree sc = true ∧ c.find f.name = some (.own (.option (low sc (Rust.fieldTy f.ty))), true)) →
    ∃ ms, itemsSem c (denList (fs.map (fieldAssign kind))) (fs.map fun f => low sc f.ty) = some ms ∧
      ∀ args W s slots k, HasVals s fs (slots.map slotVal) → valuesM ms k W s =
        match assigns kind (lowFields sc args fs) slots with
        | .ok vs => k vs W s
        | .error e => .ret e
  | [], _ => ⟨[], rfl, fun args W s slots k _ => rfl⟩
  | f :: fs, hf => by
    obtain ⟨m, h1, h2⟩ := assign_ok (hf f (List.mem_cons_self ..)).1 kind hc hs hr (hf f (List.mem_cons_self ..)).2
    obtain ⟨ms, h3, h4⟩ := assigns_ok kind hc hs hr fs fun g hg => hf g (List.mem_cons_of_mem _ hg)
    refine ⟨m :: ms, items_cons h1 h3, ?_⟩
    intro args W s slots k hv
    cases slots with
    | nil => exact hv.elim
    | cons slot slots =>
      exact assigns_cons kind sc args f fs slot slots W s m ms k (h2 args W s slot hv.1) fun k => h4 args W s slots k hv.2

/-! ### All fields -/

/-- The outcome of a function is that of a decoder. -/
def OutRes (out : Out) : Res Val → Prop
  | .ok v r => ∃ s, out = .ok (.ok (.val v)) s ∧ s.input = r
  | .err e => out = .ret e ∨ ∃ s, out = .ok (.fail e) s
  | .panic => out = .panic
  | .hang => out = .hang

/-- How the value is built from those of the fields. -/
def Builds (c : Ctx) (variant : Option String) (kind : FieldKind) (names : List String) (tys : List Ty)
    (mk : List Val → Val) : Prop :=
  ∀ c' es ms exp, c'.self = c.self → c'.selfTy = c.selfTy → itemsSem c' es tys = some ms →
    buildSem variant kind names es c' exp = some (.own c.selfTy, valuesM ms fun vs => pureM (.val (mk vs)))

/-- `Ok(Self{ .. })` -/
theorem ok_build {sc : Scope} (hp : sc.values "Ok" = false) {c c' : Ctx} {variant : Option String} {kind : FieldKind}
    {names : List String} {es : List Expr} {tys : List Ty} {ms : List M} {mk : List Val → Val} (hs : c'.scope = sc)
    (hb : Builds c variant kind names tys mk) (h1 : c'.self = c.self) (h2 : c'.selfTy = c.selfTy)
    (hi : itemsSem c' (denList es) tys = some ms) (exp : Option RType) :
    (den (.wrap .ok (.build variant kind names es))).plain c' exp =
      some (.result (.own c.selfTy), (valuesM ms fun vs => pureM (.val (mk vs))).bind fun v => pureM (.ok v)) := by
  have hv : c'.scope.values "Ok" = false := by rw [hs]; exact hp
  have hbuild : ∀ exp, (den (.build variant kind names es)).plain c' exp =
      some (.own c.selfTy, valuesM ms fun vs => pureM (.val (mk vs))) := by
    intro exp
    rw [den, Arg.expr]
    exact hb c' _ ms exp h1 h2 hi
  rw [den, Arg.expr]
  simp only [wrapSem, okSem, hv, hbuild, Bool.false_eq_true, if_false, Option.bind_eq_bind, Option.bind_some]

theorem reader_slots {o : BytesType} {sc : Scope} {fs : Simplify.Fields} (h : fieldsGood o sc fs = true) {c : Ctx} (hr : Reader c) :
    Reader (inSlots c sc fs.fields) := by
  obtain ⟨b, hv⟩ := hr.var
  refine ⟨⟨b, ?_⟩, hr.ret⟩
  rw [Ctx.find, inSlots, List.lookup_append, slotTys_none (names_self h (.inr (.inr rfl)))]
  exact hv

/-- The part of a function that reads the fields and builds the value. -/
theorem decode_fields {o : BytesType} {sc : Scope} (hp : sc.values "Ok" = false) {fs : Simplify.Fields}
    (h : fieldsGood o sc fs = true) (variant : Option String) :
    ∃ body, decodeFields o variant fs = some body ∧
      (fs.kind = .unit → body = [.tail (.wrap .ok (.build variant .unit [] []))]) ∧
      ∀ c mk, c.opts = o → c.scope = sc → Reader c →
        Builds c variant fs.kind (fs.fields.map (·.name)) (fs.fields.map fun f => low sc f.ty) mk →
        ∃ m, seqSem (denStmts body) c (some (.result (.own c.selfTy))) = some (.result (.own c.selfTy), m) ∧
          ∀ dext args W s, (∀ n as, Local (dext n as)) → DecAgree o sc.arity dext args W →
            OutRes (m W s) ((decFields (decTy dext true) ((Build.lowerFields sc.look sc.generics fs).subst args) s.input).map mk) := by
  obtain ⟨hu, hn, hg⟩ := fieldsGood_iff.1 h
  obtain ⟨ss, h1, h2⟩ := slots_seq (o := o) fs.fields fun f hf => (fieldGood_iff.1 (hg f hf)).2.1
  obtain ⟨arms, h3, h4⟩ := body_ok hp hg hn
  by_cases hk : fs.kind = .unit
  · refine ⟨[.tail (.wrap .ok (.build variant .unit [] []))], by simp only [decodeFields, h1, h3, hk, if_true]; rfl, fun _ => rfl, ?_⟩
    intro c mk hc hs hr hb
    have hempty := hu hk
    rw [hempty, hk] at hb
    have hok := ok_build (es := []) hp hs hb rfl rfl rfl (some (.result (.own c.selfTy)))
    refine ⟨_, by simp only [denStmts, denStmt, seqSem]; exact hok, ?_⟩
    intro dext args W s _ _
    have hkind : ((Build.lowerFields sc.look sc.generics fs).subst args).kind = .unit := hk
    rw [decFields, if_pos hkind]
    exact ⟨s, rfl, rfl⟩
  · refine ⟨_, by simp only [decodeFields, h1, h3, hk, if_false]; rfl, fun h => absurd h hk, ?_⟩
    intro c mk hc hs hr hb
    have hr1 := reader_slots h hr
    have hfind : ∀ f, f ∈ fs.fields → (inSlots c sc fs.fields).find f.name =
        some (.own (.option (low sc (Rust.fieldTy f.ty))), true) := by
      intro f hf
      rw [Ctx.find, inSlots, List.lookup_append, slotTys_find hn hf]
      rfl
    obtain ⟨mb, h5, h6⟩ := h4 { inSlots c sc fs.fields with inLoop := true } hc hs ⟨hr1.var, hr1.ret⟩ rfl hfind
    obtain ⟨ms, h7, h8⟩ := assigns_ok fs.kind (c := inSlots c sc fs.fields) hc hs hr1 fs.fields fun f hf =>
      ⟨(fieldText_iff.1 (fieldGood_iff.1 (hg f hf)).2.1).1, hfind f hf⟩
    have hok := ok_build hp (c' := inSlots c sc fs.fields) hs hb rfl rfl h7 (some (.result (.own c.selfTy)))
    have hloop : (den (.loop (loopBody arms))).plain.check (inSlots c sc fs.fields) .unit = some (loopM (inBlock mb)) := by
      refine check_same (u := .unit) ?_ rfl
      rw [den, Arg.expr]
      simp only [loopSem, h5, Option.bind_eq_bind, Option.bind_some, RType.same, Bool.true_or, if_true]
    obtain ⟨m', h9, h10⟩ := h2 c hc hs
      [.tail (.loop (loopBody arms)),
        .tail (.wrap .ok (.build variant fs.kind (fs.fields.map (·.name)) (fs.fields.map (fieldAssign fs.kind))))]
      (some (.result (.own c.selfTy))) (.result (.own c.selfTy)) _ (by
        simp only [denStmts, denStmt, seqSem, hloop, hok, Option.bind_eq_bind, Option.bind_some]
        rfl)
    refine ⟨m', h9, ?_⟩
    intro dext args W s hl ha
    rw [h10]
    have hkind : ((Build.lowerFields sc.look sc.generics fs).subst args).kind = fs.kind := rfl
    have hdl : ∀ t, Local (decTy dext true t) := fun t => decTy_local hl true t
    have hrounds := rounds_ok (mb := inBlock mb) (W := W) (lfs := lowFields sc args fs.fields) (fs := fs.fields) (base := s.vars) hdl
      (fun s' slots hv hlen => h6 dext args W s' slots s.vars ha hv hlen) (s.input.length + 1) (fs.fields.map fun _ => none)
      { s with vars := slotVars fs.fields (fs.fields.map fun _ => none) ++ s.vars } rfl (by simp) (by simp)
    have hloopM := loopM_eq hrounds
    rw [decFields, hkind, if_neg hk, lowFields_eq]
    show OutRes ((loopM (inBlock mb) W _).bind _) _
    rw [hloopM]
    have hslots : (lowFields sc args fs.fields).map (fun _ => (none : Option Val)) = fs.fields.map fun _ => none := by
      simp [lowFields]
    rw [hslots]
    cases hd : fieldLoop (decTy dext true) (lowFields sc args fs.fields) (s.input.length + 1) (fs.fields.map fun _ => none) s.input with
    | err e => exact .inl rfl
    | panic => rfl
    | hang => rfl
    | ok slots r' =>
      have hlen : slots.length = fs.fields.length := by
        have := fieldLoop_length hd
        simpa using this
      simp only [loopOut, Out.bind, Res.bind_ok]
      have h11 := h8 args W { s with input := r', vars := slotVars fs.fields slots ++ s.vars } slots
        (fun vs => pureM (.val (mk vs))) (hasVals_of hn (by simpa using hlen) rfl)
      simp only [M.bind, h11]
      cases hassign : assigns fs.kind (lowFields sc args fs.fields) slots with
      | ok vs => exact ⟨_, rfl, rfl⟩
      | error e => exact .inl rfl

end Mabo.Rust
