import Verif.Rust.FieldSem
import Verif.Rust.GoodCrate
/-!
The generated functions `size` and `encode` as a whole.
-/
namespace Mabo.Rust
open Mabo.Buf Mabo.Codegen Mabo.Spec
open Mabo.Schema (Prim Ty Val wt wtList wtEntries wtTuple wtFields Env FieldKind)
open Mabo.Build (Files)

/-! ### What is good -/

theorem fieldsGood_iff {o : BytesType} {sc : Scope} {fs : Simplify.Fields} : fieldsGood o sc fs = true ↔
    (fs.kind = .unit → fs.fields = []) ∧ (fs.fields.map (·.name)).Nodup ∧ ∀ f, f ∈ fs.fields → fieldGood o sc f = true := by
  simp only [fieldsGood, Bool.and_eq_true, Bool.or_eq_true, decide_eq_true_eq, List.all_eq_true, List.isEmpty_iff]
  constructor
  · rintro ⟨⟨h1, h2⟩, h3⟩
    exact ⟨fun hk => h1.resolve_left (fun h => h hk), h2, h3⟩
  · rintro ⟨h1, h2, h3⟩
    refine ⟨⟨?_, h2⟩, h3⟩
    by_cases hk : fs.kind = .unit
    · exact .inr (h1 hk)
    · exact .inl hk

theorem fieldGood_iff {o : BytesType} {sc : Scope} {f : Simplify.Field} : fieldGood o sc f = true ↔
    (keywords.contains f.name = false ∧ f.name ≠ "w" ∧ f.name ≠ "r" ∧ f.name ≠ "id") ∧ fieldText o sc f.ty = true ∧
      refOk o sc.arity 0 (low sc f.ty) = true ∧ decOk o sc.arity (low sc f.ty) = true := by
  simp only [fieldGood, nameGood, Bool.and_eq_true, decide_eq_true_eq, Bool.not_eq_true', and_assoc, low]

theorem namesOk_good {o : BytesType} {sc : Scope} {fs : Simplify.Fields} (h : fieldsGood o sc fs = true) :
    namesOk fs.kind (Build.lowerFields sc.look sc.generics fs) (fs.fields.map (·.name)) = true := by
  obtain ⟨h1, h2, h3⟩ := fieldsGood_iff.1 h
  have hk : (fs.fields.map (·.name)).all (fun n => !keywords.contains n) = true := by
    rw [List.all_eq_true]
    intro x hx
    obtain ⟨f, hf, rfl⟩ := List.mem_map.1 hx
    simp only [(fieldGood_iff.1 (h3 f hf)).1.1, Bool.not_false]
  unfold namesOk
  rw [hk]
  simp only [Build.lowerFields, decide_true, Bool.true_and, h2, Bool.and_self]
  cases hkd : fs.kind with
  | named => simp
  | unnamed => simp
  | unit => simp [h1 hkd]

theorem fieldVars_eq (sc : Scope) (fs : Simplify.Fields) :
    fieldVars (fs.fields.map (·.name)) ((Build.lowerFields sc.look sc.generics fs).fields.map (·.ty)) =
      typeAll (fs.fields.map (·.name)) (fs.fields.map fun f => RType.ref (.own (low sc f.ty))) := by
  simp only [fieldVars, Build.lowerFields, List.map_map]
  rfl

/-! ### Fields of structs and variants -/

/-- The operands for the fields. -/
theorem size_fields_all {o : BytesType} {sc : Scope} {fs : Simplify.Fields} (h : fieldsGood o sc fs = true)
    (hk : fs.kind ≠ .unit) :
    ∃ es, sizeFields o fs = some es ∧ (∀ e, es = [e] → e = endMarkerSize) ∧ es ≠ [] ∧
      ∀ c, c.opts = o → c.scope = sc → HasFields c sc fs.fields →
      ∃ ms, operands c (denList es) = some ms ∧
        ∀ env args W s vs B, HasVals s fs.fields vs → wtFields env (lowFields sc args fs.fields) vs = true →
          SizeAgree o sc.arity env args B W → (∀ v, v ∈ vs → sizeOf v ≤ B) →
          Sums W s ms (Codegen.sizeFields env (lowFields sc args fs.fields) vs + Buf.endMarkerSize) := by
  obtain ⟨_, _, h3⟩ := fieldsGood_iff.1 h
  obtain ⟨es, he, ho⟩ := size_fields o sc fs.fields fun f hf => (fieldGood_iff.1 (h3 f hf)).2.2.1
  refine ⟨es ++ [endMarkerSize], by simp only [sizeFields, hk, if_false, he]; rfl, ?_, by simp, ?_⟩
  · intro e h
    cases es with
    | nil =>
      injection h with h
      exact h.symm
    | cons a as =>
      injection h with h h'
      cases as <;> cases h'
  · intro c hc hs hf
    obtain ⟨ms, h1, h2⟩ := ho c hc hs hf
    refine ⟨_, operands_append h1 (operand_usize (m := pureM (.usize Buf.endMarkerSize)) fun exp => by
      simp only [endMarkerSize, den, Arg.expr, constSem]), ?_⟩
    intro env args W s vs B hv hw ha hB
    exact (h2 env args W s vs B hv hw ha hB).append ⟨_, 0, rfl, rfl, rfl⟩

/-- A sum of operands. -/
theorem sum_ops {c : Ctx} {es : List Expr} {ms : List M} (h : operands c (denList es) = some ms) (hne : es ≠ [])
    (h1 : ∀ e, es = [e] → ∃ m, ms = [m] ∧ ∀ exp, (den e).plain c exp = some (.usize, m)) :
    ∃ m, (∀ exp, (den (Rust.add es)).plain c exp = some (.usize, m)) ∧
      ∀ W s n, Sums W s ms n → m W s = .ok (.usize n) s := by
  have hl := operands_length h
  match es, hne with
  | [e], _ =>
    obtain ⟨m, rfl, he⟩ := h1 e rfl
    refine ⟨m, he, ?_⟩
    rintro W s n ⟨a, b, hm, hb, rfl⟩
    have hb : b = 0 := hb
    subst hb
    exact hm
  | e :: e' :: es, _ =>
    match ms, hl with
    | m1 :: m2 :: ms, _ =>
      refine ⟨sumsM (addM m1 m2) ms, ?_, ?_⟩
      · intro exp
        simp [Rust.add, den, Arg.expr, sumSem, h]
      · rintro W s n ⟨a, b, hm, ⟨a', b', hm', hb, rfl⟩, rfl⟩
        rw [sumsM_ok (addM_ok hm hm') hb, Nat.add_assoc]

/-- The statements for the fields. -/
theorem encode_fields_all {o : BytesType} {sc : Scope} {fs : Simplify.Fields} (h : fieldsGood o sc fs = true) :
    ∃ ss, encodeFields o fs = some ss ∧
      ∀ c, c.opts = o → c.scope = sc → Writes c → HasFields c sc fs.fields →
      ∃ m', Runs c ss m' ∧
        ∀ env args W s vs B, HasVals s fs.fields vs → wtFields env (lowFields sc args fs.fields) vs = true →
          Agrees o sc.arity env args B W → (∀ v, v ∈ vs → sizeOf v ≤ B) →
          m' W s = .ok .unit (s.write (if fs.kind = .unit then []
            else Codegen.encFields env (lowFields sc args fs.fields) vs ++ Varint.encodeU (BitVec.ofNat 32 Buf.endMarker))) := by
  obtain ⟨_, _, h3⟩ := fieldsGood_iff.1 h
  by_cases hk : fs.kind = .unit
  · refine ⟨[], by simp [encodeFields, hk], fun c hc hs hw hf => ⟨_, Runs.nil c, ?_⟩⟩
    intro env args W s vs B _ _ _ _
    simp only [hk, if_true, write_nil, pureM]
  · obtain ⟨ss, he, ho⟩ := encode_fields o sc fs.fields (fun f hf => (fieldGood_iff.1 (h3 f hf)).2.2.1)
      fun f hf => (fieldGood_iff.1 (h3 f hf)).1.2.1
    refine ⟨ss ++ [.semi (.call (.encVal .u32) [w, .const .endMarker])],
      by simp only [encodeFields, hk, if_false, he]; rfl, ?_⟩
    intro c hc hs hw hf
    obtain ⟨m, h1, h2⟩ := ho c hc hs hw hf
    have hcst : (den (.const .endMarker)).plain.check c (.own (.prim .u32)) = some (pureM (.val (.num Buf.endMarker))) :=
      check_eq (by simp only [den, Arg.expr, constSem, RType.u32]) (by simp [RType.same])
    have hend : (den (.call (.encVal .u32) [w, .const .endMarker])).plain c none =
        some (.unit, (pureM (.val (.num Buf.endMarker))).bind (onVal fun v => writeM (encRep (Prim.rep .u32) v))) := by
      rw [den, Arg.expr]
      simp only [denList, callSem, hw.arg, hcst, Option.bind_eq_bind, Option.bind_some]
      rfl
    refine ⟨_, h1.append (Runs.semi hend), ?_⟩
    intro env args W s vs B hv hwt ha hB
    rw [M.bind_ok (h2 env args W s vs B hv hwt ha hB), M.bind_ok (v := .val (.num Buf.endMarker)) rfl]
    simp only [onVal, writeM, write_write, hk, if_false]
    rfl

/-! ### Structs -/

/-- `let Self{ .. } = self;` -/
theorem unpack_eq {c : Ctx} {t : Ty} {b : Bool} {fs : Schema.Fields} {names : List String} {rest : List StmtSem} {exp : Option RType}
    {u : RType} {ms : M} (hself : c.self = .struct fs) (hn : namesOk fs.kind fs names = true)
    (hf : c.find "self" = some (.ref (.own t), b)) (ht : rustOf c.opts t = rustOf c.opts c.selfTy)
    (hr : seqSem rest { c with vars := fieldVars names (fs.fields.map (·.ty)) ++ c.vars } exp = some (u, ms)) :
    ∃ m, seqSem (.unpack fs.kind names :: rest) c exp = some (u, m) ∧
      ∀ W s vs, s.vars.lookup "self" = some (.val (.struct vs)) →
        m W s = ms W { s with vars := bindAll names (vs.map .val) ++ s.vars } := by
  have hv : varSem "self" c none = some (.ref (.own t), lookM "self") := by
    simp only [varSem, hf, Option.bind_eq_bind, Option.bind_some]
    rfl
  rw [hself] at hr
  refine ⟨_, by
    simp only [seqSem, hself, hn, if_true, hv, ht, hr, Option.bind_eq_bind, Option.bind_some]
    rfl, ?_⟩
  intro W s vs hl
  rw [M.bind_ok (lookM_ok hl)]
  rfl

theorem val_mem_size {v : Val} : ∀ {vs : List Val}, v ∈ vs → sizeOf v < sizeOf vs
  | x :: xs, h => by
    rcases List.mem_cons.1 h with rfl | h
    · simp only [List.cons.sizeOf_spec]; omega
    · have := val_mem_size h
      simp only [List.cons.sizeOf_spec]; omega

/-- What is known where the type at `abs` is defined. -/
structure At (c : Ctx) (o : BytesType) (sc : Scope) (it : Build.Item) : Prop where
  opts : c.opts = o
  scope : c.scope = sc
  self : c.self = Build.lowerItem sc.look it
  generics : sc.generics = it.generics
  var : ∃ t b n as, t = Ty.ext n as ∧ c.find "self" = some (.ref (.own t), b) ∧ rustOf c.opts t = rustOf c.opts c.selfTy

theorem names_self {o : BytesType} {sc : Scope} {fs : Simplify.Fields} (h : fieldsGood o sc fs = true) {x : String}
    (hx : x = "self" ∨ x = "w" ∨ x = "r") : x ∉ fs.fields.map (·.name) := by
  intro hc
  obtain ⟨f, hf, hn⟩ := List.mem_map.1 hc
  have hg := (fieldGood_iff.1 ((fieldsGood_iff.1 h).2.2 f hf)).1
  rcases hx with rfl | rfl | rfl
  · rw [hn] at hg
    exact absurd hg.1 (by decide)
  · exact hg.2.1 hn
  · exact hg.2.2.1 hn

/-- Inside of a pattern for the fields. -/
def inFields (c : Ctx) (sc : Scope) (fs : Simplify.Fields) : Ctx :=
  { c with
    vars := fieldVars (fs.fields.map (·.name)) ((Build.lowerFields sc.look sc.generics fs).fields.map (·.ty)) ++ c.vars }

/-- The function `size` of a struct. -/
theorem size_struct {o : BytesType} {sc : Scope} {st : Simplify.Struct} (h : fieldsGood o sc st.fields = true) :
    ∃ i, sizeStruct o st = some i ∧ ∀ c, At c o sc (.struct st) →
      ∃ m, seqSem (denStmts i.body) c (some .usize) = some (.usize, m) ∧
        ∀ env abs args W s vs B, env abs = some (Build.lowerItem sc.look (.struct st)) →
          s.vars.lookup "self" = some (.val (.struct vs)) →
          wt env (.ext abs args) (.struct vs) = true → SizeAgree o sc.arity env args B W → (∀ v, v ∈ vs → sizeOf v ≤ B) →
          ∃ s', m W s = .ok (.usize (Codegen.size env (.ext abs args) (.struct vs))) s' := by
  have hgood := fieldsGood_iff.1 h
  have hnames := namesOk_good h
  by_cases hk : st.fields.kind = .unit
  · refine ⟨_, by simp only [sizeStruct, sizeFields, hk, if_true]; rfl, ?_⟩
    intro c ha
    obtain ⟨t, b, n, as, _, hf, ht⟩ := ha.var
    have hgen : sc.generics = st.generics := ha.generics
    have hs : c.self = .struct (Build.lowerFields sc.look sc.generics st.fields) := by rw [ha.self, ha.generics]; rfl
    obtain ⟨m, hm, hm'⟩ := unpack_eq (exp := some .usize) (rest := [.tail (den (.lit 0)).plain]) (u := .usize)
      (ms := pureM (.usize 0)) hs hnames hf ht (by simp only [seqSem, den, Arg.expr, litSem])
    have hm : seqSem (denStmts [.unpack st.fields.kind (st.fields.fields.map (·.name)), .tail (Rust.add [.lit 0])]) c (some .usize)
      = some (.usize, m) := hm
    refine ⟨m, by rw [hk] at hm; exact hm, ?_⟩
    intro env abs args W s vs B henv hl hwt hag hB
    rw [show Codegen.size env (.ext abs args) (.struct vs) = 0 by
      rw [Codegen.size.eq_def]
      simp only [Schema.Ty.strip, henv, Build.lowerItem, Build.lowerFields, hk, if_true]]
    exact ⟨_, hm' W s vs hl⟩
  · obtain ⟨es, he, hone, hne, ho⟩ := size_fields_all h hk
    refine ⟨_, by simp only [sizeStruct, he]; rfl, ?_⟩
    intro c ha
    obtain ⟨t, b, n, as, _, hf, ht⟩ := ha.var
    have hgen : sc.generics = st.generics := ha.generics
    have hs : c.self = .struct (Build.lowerFields sc.look sc.generics st.fields) := by rw [ha.self, ha.generics]; rfl
    obtain ⟨ms, h1, h2⟩ := ho (inFields c sc st.fields) ha.opts ha.scope
      (hasFields_of (rest := c.vars) hgood.2.1 (by simp only [inFields, fieldVars_eq]))
    obtain ⟨ma, h3, h4⟩ := sum_ops h1 hne (fun e hes => by
      have := hone e hes
      subst this
      subst hes
      simp only [denList, operands, operand, endMarkerSize, den, Arg.expr, constSem] at h1 ⊢
      injection h1 with h1
      exact ⟨_, h1.symm, fun exp => rfl⟩)
    obtain ⟨m, hm, hm'⟩ := unpack_eq (exp := some .usize) (rest := [.tail (den (Rust.add es)).plain]) (u := .usize)
      (ms := ma) hs hnames hf ht (by simp only [seqSem]; exact h3 _)
    refine ⟨m, hm, ?_⟩
    intro env abs args W s vs B henv hl hwt hag hB
    rw [wt.eq_def] at hwt
    simp only [Schema.Ty.strip, henv, Build.lowerItem, Bool.and_eq_true, ← hgen, lowFields_eq] at hwt
    rw [show Codegen.size env (.ext abs args) (.struct vs) =
        Codegen.sizeFields env (lowFields sc args st.fields.fields) vs + Buf.endMarkerSize by
      rw [Codegen.size.eq_def]
      simp only [Schema.Ty.strip, henv, Build.lowerItem, ← hgen, lowFields_eq]
      simp only [Build.lowerFields, hk, if_false]]
    refine ⟨_, (hm' W s vs hl).trans (h4 W _ _ (h2 env args W _ vs B ?_ hwt.2.2 hag hB))⟩
    exact hasVals_of hgood.2.1 (by rw [wtFields_length hwt.2.2]; simp [lowFields]) rfl

/-- The function `encode` of a struct. -/
theorem encode_struct {o : BytesType} {sc : Scope} {st : Simplify.Struct} (h : fieldsGood o sc st.fields = true) :
    ∃ i, encodeStruct o st = some i ∧ ∀ c, At c o sc (.struct st) → Writes c →
      ∃ m, seqSem (denStmts i.body) c (some .unit) = some (.unit, m) ∧
        ∀ env abs args W s vs B, env abs = some (Build.lowerItem sc.look (.struct st)) →
          s.vars.lookup "self" = some (.val (.struct vs)) →
          wt env (.ext abs args) (.struct vs) = true → Agrees o sc.arity env args B W → (∀ v, v ∈ vs → sizeOf v ≤ B) →
          ∃ s', m W s = .ok .unit s' ∧ s'.output = s.output ++ Codegen.enc env false (.ext abs args) (.struct vs) := by
  have hgood := fieldsGood_iff.1 h
  have hnames := namesOk_good h
  obtain ⟨ss, he, ho⟩ := encode_fields_all h
  refine ⟨_, by simp only [encodeStruct, he]; rfl, ?_⟩
  intro c ha hw
  obtain ⟨t, b, n, as, _, hf, ht⟩ := ha.var
  have hgen : sc.generics = st.generics := ha.generics
  have hs : c.self = .struct (Build.lowerFields sc.look sc.generics st.fields) := by rw [ha.self, ha.generics]; rfl
  obtain ⟨ma, h1, h2⟩ := ho (inFields c sc st.fields) ha.opts ha.scope
      (by
        obtain ⟨b, hw⟩ := hw
        refine ⟨b, ?_⟩
        rw [Ctx.find, inFields, List.lookup_append, fieldVars_eq, typeAll_none (names_self h (.inr (.inl rfl)))]
        exact hw)
      (hasFields_of (rest := c.vars) hgood.2.1 (by simp only [inFields, fieldVars_eq]))
  obtain ⟨m, hm, hm'⟩ := unpack_eq (exp := some .unit) (rest := denStmts ss) (u := .unit) hs hnames hf ht (h1.all _)
  refine ⟨m, hm, ?_⟩
  intro env abs args W s vs B henv hl hwt hag hB
  rw [wt.eq_def] at hwt
  simp only [Schema.Ty.strip, henv, Build.lowerItem, Bool.and_eq_true, ← hgen, lowFields_eq] at hwt
  have h3 := h2 env args W { s with vars := bindAll (st.fields.fields.map (·.name)) (vs.map .val) ++ s.vars } vs B
    (hasVals_of hgood.2.1 (by rw [wtFields_length hwt.2.2]; simp [lowFields]) rfl) hwt.2.2 hag hB
  refine ⟨_, (hm' W s vs hl).trans ((M.bind_ok (k := fun _ => pureM .unit) h3).trans rfl), ?_⟩
  simp only [St.write]
  congr 1
  rw [Codegen.enc.eq_def]
  simp only [Schema.Ty.strip, henv, Build.lowerItem, ← hgen, lowFields_eq]
  rfl

/-! ### Enums -/

theorem findVariant_get : ∀ {vars : List Schema.Variant} {i : Nat} {v : Schema.Variant}, (vars.map (·.name)).Nodup →
    vars[i]? = some v → findVariant v.name vars = some (i, v.fields)
  | x :: xs, 0, v, _, h => by
    simp only [List.getElem?_cons_zero, Option.some.injEq] at h
    subst h
    simp only [findVariant, if_true]
  | x :: xs, i + 1, v, hn, h => by
    simp only [List.map_cons, List.nodup_cons] at hn
    simp only [List.getElem?_cons_succ] at h
    have hne : x.name ≠ v.name := fun e => hn.1 (e ▸ List.mem_map.2 ⟨v, List.mem_of_getElem? h, rfl⟩)
    rw [findVariant, if_neg hne, findVariant_get hn.2 h]
    rfl

/-- Arms for the variants, with their types and executions. -/
def ArmsOk (c : Ctx) (exp : Option RType) (T : RType) : List Schema.Variant → List (Pat × Elab) → List M → Prop
  | [], [], [] => True
  | v :: vs, (p, e) :: as, m :: ms =>
    (∃ names, p = .variant v.name v.fields.kind names ∧ names = v.fields.fields.map (·.name) ∧
      namesOk v.fields.kind v.fields names = true ∧ keywords.contains v.name = false ∧
      e { c with vars := fieldVars names (v.fields.fields.map (·.ty)) ++ c.vars } exp = some (T, m)) ∧ ArmsOk c exp T vs as ms
  | _, _, _ => False

theorem enumArms_ok {c : Ctx} {vars : List Schema.Variant} {exp : Option RType} {T : RType} (hn : (vars.map (·.name)).Nodup)
    (hT : T.same c.opts T = true) (hT' : T ≠ .never) :
    ∀ {vs : List Schema.Variant} {as : List (Pat × Elab)} {ms : List M} {j : Nat}, ArmsOk c exp T vs as ms → vars.drop j = vs →
      ∃ k, enumArms c vars exp as = some (if vs = [] then .never else T, List.range' j vs.length, k) ∧
        ∀ i v m xs, vs[i]? = some v → ms[i]? = some m → k (j + i) xs = withFields (v.fields.fields.map (·.name)) xs m
  | [], [], [], j, _, _ => ⟨_, rfl, fun i v m xs h => by simp at h⟩
  | v :: vs, (p, e) :: as, m :: ms, j, ⟨⟨names, hp, hnames, hok, hkw, he⟩, hr⟩, hd => by
    have hj : vars[j]? = some v := by
      have := congrArg (fun l => l[0]?) hd
      simpa using this
    have hd' : vars.drop (j + 1) = vs := by
      rw [← List.drop_drop, hd]
      rfl
    obtain ⟨k, hk, hk'⟩ := enumArms_ok hn hT hT' hr hd'
    have hjoin : joinTy c.opts T (if vs = [] then .never else T) = some T := by
      split
      · cases T <;> first | rfl | exact absurd rfl hT'
      · cases T <;> first | exact absurd rfl hT' | simp only [joinTy, hT, if_true]
    subst hp
    refine ⟨_, by
      simp only [enumArms, findVariant_get hn hj, hok, hkw, Bool.not_false, Bool.and_self, if_true, he, hk, hjoin,
        Option.bind_eq_bind, Option.bind_some]
      simp only [reduceCtorEq, if_false, List.length_cons, List.range'_succ]
      rfl, ?_⟩
    intro i v' m' xs hv hm
    cases i with
    | zero =>
      simp only [List.getElem?_cons_zero, Option.some.injEq] at hv hm
      subst hv hm
      simp only [Nat.add_zero, if_true, hnames]
    | succ i =>
      simp only [List.getElem?_cons_succ] at hv hm
      have : j + (i + 1) ≠ j := by omega
      rw [if_neg this, ← hk' i v' m' xs hv hm]
      congr 1
      omega

/-- A `match` over `self`. -/
theorem match_self {c : Ctx} {vars : List Schema.Variant} {arms : List Arm} {ms : List M} {T : RType} {n : List String} {as : List Ty}
    {b : Bool} (hself : c.self = .enum vars) (hf : c.find "self" = some (.ref (.own (.ext n as)), b))
    (ht : rustOf c.opts (.ext n as) = rustOf c.opts c.selfTy) (hn : (vars.map (·.name)).Nodup) (hne : vars ≠ [])
    (hT : T.same c.opts T = true) (hT' : T ≠ .never) (ha : ArmsOk c (some T) T vars (denArms arms) ms) :
    ∃ m, seqSem (denStmts [.tail (.match (.var "self") arms)]) c (some T) = some (T, m) ∧
      ∀ W s i v mi xs, s.vars.lookup "self" = some (.val (.enum i xs)) → vars[i]? = some v → ms[i]? = some mi →
        m W s = withFields (v.fields.fields.map (·.name)) xs mi W s := by
  obtain ⟨k, hk, hk'⟩ := enumArms_ok hn hT hT' ha (j := 0) (by simp)
  rw [if_neg hne] at hk
  have hv : (den (.var "self")).plain c none = some (.ref (.own (.ext n as)), lookM "self") := by
    simp only [den, Arg.expr, varSem, hf, Option.bind_eq_bind, Option.bind_some]
    rfl
  have he : (denArms arms).isEmpty = false := by
    cases hd : denArms arms with
    | nil =>
      rw [hd] at ha
      cases vars with
      | nil => exact absurd rfl hne
      | cons => exact ha.elim
    | cons => rfl
  have hall : (List.range vars.length).all ((List.range' 0 vars.length).contains ·) = true := by
    rw [List.all_eq_true]
    intro x hx
    rw [List.mem_range] at hx
    simp [List.mem_range'_1, hx]
  refine ⟨_, by
    simp only [denStmts, denStmt, seqSem]
    rw [den, Arg.expr]
    simp only [matchSem, hv, hself, hk, ht, he, hall, Option.bind_eq_bind, Option.bind_some, Bool.not_false, and_self, if_true]
    rfl, ?_⟩
  intro W s i v mi xs hl hi hm
  rw [M.bind_ok (lookM_ok hl)]
  have := hk' i v mi xs hi hm
  rw [Nat.zero_add] at this
  simp only [onVal, this]

theorem inBlock_ok {m : M} {W : World} {s s' : St} {v : RVal} (h : m W s = .ok v s') :
    inBlock m W s = .ok v (leave s.vars.length s') := by
  simp only [inBlock, h]

theorem withFields_ok {m : M} {W : World} {s s' : St} {names : List String} {xs : List Val} {v : RVal}
    (h : m W { s with vars := bindAll names (xs.map .val) ++ s.vars } = .ok v s') :
    withFields names xs m W s = .ok v (leave s.vars.length s') := by
  unfold withFields
  exact inBlock_ok h

/-- `{ .. }` -/
theorem block_eq {body : List Stmt} {c : Ctx} {exp : Option RType} {t : RType} {m : M}
    (h : seqSem (denStmts body) c exp = some (t, m)) : (den (.block body)).plain c exp = some (t, inBlock m) := by
  rw [den, Arg.expr]
  simp only [blockSem, h, Option.bind_eq_bind, Option.bind_some]

theorem sizeVariantId_eq {c : Ctx} (id : BitVec 32) :
    ∃ m, (∀ exp, (den (sizeVariantId id)).plain c exp = some (.usize, m)) ∧
      ∀ W s, m W s = .ok (.usize (Buf.sizeVariantId id)) s := by
  have hl := lit_check (c := c) id
  refine ⟨_, fun exp => by
    rw [sizeVariantId, den, Arg.expr]
    simp only [denList, callSem, hl, Option.bind_eq_bind, Option.bind_some]
    rfl, ?_⟩
  intro W s
  rw [M.bind_ok (v := .val (.num id.toNat)) (s' := s) rfl]
  simp only [onVal, ofNat_toNat]
  rfl

/-- One arm for each variant. -/
theorem arms_all {f : Simplify.Variant → Option Arm} {lv : Simplify.Variant → Schema.Variant} {T : RType}
    {P : Simplify.Variant → M → Prop} {C : Ctx → Prop} : ∀ vs : List Simplify.Variant,
    (∀ v, v ∈ vs → ∃ e, f v = some (.mk (.variant (lv v).name (lv v).fields.kind ((lv v).fields.fields.map (·.name))) e) ∧
      namesOk (lv v).fields.kind (lv v).fields ((lv v).fields.fields.map (·.name)) = true ∧
      keywords.contains (lv v).name = false ∧
      ∀ c, C c → ∃ m, (den e).plain
        { c with vars := fieldVars ((lv v).fields.fields.map (·.name)) ((lv v).fields.fields.map (·.ty)) ++ c.vars } (some T) =
          some (T, m) ∧ P v m) →
    ∃ arms, all (vs.map f) = some arms ∧ ∀ c, C c → ∃ ms, ArmsOk c (some T) T (vs.map lv) (denArms arms) ms ∧
      ∀ (i : Nat) v, vs[i]? = some v → ∃ m, ms[i]? = some m ∧ P v m
  | [], _ => ⟨[], rfl, fun c _ => ⟨[], trivial, fun i v h => by simp at h⟩⟩
  | v :: vs, h => by
    obtain ⟨e, h1, h2, h3, h4⟩ := h v (List.mem_cons_self ..)
    obtain ⟨arms, h5, h6⟩ := arms_all vs fun x hx => h x (List.mem_cons_of_mem _ hx)
    refine ⟨.mk (.variant (lv v).name (lv v).fields.kind ((lv v).fields.fields.map (·.name))) e :: arms,
      by simp only [List.map_cons, all, h1, h5], ?_⟩
    intro c hc
    obtain ⟨m, h7, h8⟩ := h4 c hc
    obtain ⟨ms, h9, h10⟩ := h6 c hc
    refine ⟨m :: ms, ⟨⟨_, rfl, rfl, h2, h3, h7⟩, h9⟩, ?_⟩
    intro i x hx
    cases i with
    | zero =>
      simp only [List.getElem?_cons_zero, Option.some.injEq] at hx
      subst hx
      exact ⟨m, rfl, h8⟩
    | succ i => exact h10 i x hx

/-- A variant of the model. -/
def lowVariant (sc : Scope) (v : Simplify.Variant) : Schema.Variant :=
  ⟨v.name, Build.lowerFields sc.look sc.generics v.fields, v.id⟩

theorem lowVariant_names (sc : Scope) (v : Simplify.Variant) :
    (lowVariant sc v).fields.fields.map (·.name) = v.fields.fields.map (·.name) := by
  simp only [lowVariant, Build.lowerFields, List.map_map]
  rfl

/-- Part of an enum's fields: what the code of a variant computes. -/
def VariantSize (o : BytesType) (sc : Scope) (v : Simplify.Variant) (m : M) : Prop :=
  ∀ env args W s vs B, HasVals s v.fields.fields vs → wtFields env (lowFields sc args v.fields.fields) vs = true →
    SizeAgree o sc.arity env args B W → (∀ v, v ∈ vs → sizeOf v ≤ B) →
    ∃ s', m W s = .ok (.usize (Buf.sizeVariantId v.id + if v.fields.kind = .unit then 0
      else Codegen.sizeFields env (lowFields sc args v.fields.fields) vs + Buf.endMarkerSize)) s'

theorem size_variant {o : BytesType} {sc : Scope} {v : Simplify.Variant} (h : fieldsGood o sc v.fields = true) :
    ∃ e, sizeVariant o v = some (.mk (.variant v.name v.fields.kind (v.fields.fields.map (·.name))) e) ∧
      ∀ c, c.opts = o ∧ c.scope = sc → ∃ m, (den e).plain (inFields c sc v.fields) (some .usize) = some (.usize, m) ∧
        VariantSize o sc v m := by
  have hgood := fieldsGood_iff.1 h
  by_cases hk : v.fields.kind = .unit
  · refine ⟨_, by simp only [sizeVariant, sizeFields, hk, if_true]; rfl, ?_⟩
    rintro c ⟨hc, hs⟩
    obtain ⟨m, h1, h2⟩ := sizeVariantId_eq (c := inFields c sc v.fields) v.id
    refine ⟨_, block_eq (by simp only [denStmts, denStmt, seqSem]; exact h1 _), ?_⟩
    intro env args W s vs B hv hw ha hB
    rw [if_pos hk]
    exact ⟨_, inBlock_ok (h2 W s)⟩
  · obtain ⟨es, he, hone, hne, ho⟩ := size_fields_all h hk
    refine ⟨_, by simp only [sizeVariant, he, hk, if_false]; rfl, ?_⟩
    rintro c ⟨hc, hs⟩
    obtain ⟨m, h1, h2⟩ := sizeVariantId_eq (c := inFields c sc v.fields) v.id
    obtain ⟨ms, h3, h4⟩ := ho (inFields c sc v.fields) hc hs
      (hasFields_of (rest := c.vars) hgood.2.1 (by simp only [inFields, fieldVars_eq]))
    obtain ⟨ma, h5, h6⟩ := sum_ops (es := sizeVariantId v.id :: es) (ms := m :: ms)
      (operands_append (operand_usize h1) h3) (by simp) (fun e hes => by
        injection hes with _ hes
        exact absurd hes hne)
    refine ⟨_, block_eq (by simp only [denStmts, denStmt, seqSem]; exact h5 _), ?_⟩
    intro env args W s vs B hv hw ha hB
    rw [if_neg hk]
    exact ⟨_, inBlock_ok (h6 W s _ ⟨_, _, h2 W s, h4 env args W s vs B hv hw ha hB, rfl⟩)⟩

/-- What the code of a variant writes. -/
def VariantBytes (o : BytesType) (sc : Scope) (v : Simplify.Variant) (m : M) : Prop :=
  ∀ env args W s vs B, HasVals s v.fields.fields vs → wtFields env (lowFields sc args v.fields.fields) vs = true →
    Agrees o sc.arity env args B W → (∀ v, v ∈ vs → sizeOf v ≤ B) →
    ∃ s', m W s = .ok .unit s' ∧ s'.output = s.output ++ (Buf.encVariantId v.id ++ if v.fields.kind = .unit then []
      else Codegen.encFields env (lowFields sc args v.fields.fields) vs ++ Varint.encodeU (BitVec.ofNat 32 Buf.endMarker))

theorem variantId_check {c : Ctx} (id : BitVec 32) :
    ∃ m, (den (.call .variantId [.lit id.toNat])).plain.check c .variantId = some m ∧
      ∀ W s, m W s = .ok (.variantId id) s := by
  have hl := lit_check (c := c) id
  refine ⟨_, check_eq (by
    rw [den, Arg.expr]
    simp only [denList, callSem, hl, Option.bind_eq_bind, Option.bind_some]
    rfl) rfl, ?_⟩
  intro W s
  rw [M.bind_ok (v := .val (.num id.toNat)) (s' := s) rfl]
  simp only [onVal, ofNat_toNat]
  rfl

theorem call_encVariantId {c : Ctx} (hw : Writes c) (id : BitVec 32) :
    ∃ m, (den (.call .encVariantId [w, .call .variantId [.lit id.toNat]])).plain c none = some (.unit, m) ∧
      ∀ W s, m W s = .ok .unit (s.write (Buf.encVariantId id)) := by
  obtain ⟨mi, h1, h2⟩ := variantId_check (c := c) id
  refine ⟨_, by
    rw [den, Arg.expr]
    simp only [callSem, denList, hw.arg, h1, Option.bind_eq_bind, Option.bind_some]
    rfl, ?_⟩
  intro W s
  rw [M.bind_ok (h2 W s)]
  rfl

theorem writes_inFields {o : BytesType} {sc : Scope} {fs : Simplify.Fields} (h : fieldsGood o sc fs = true) {c : Ctx}
    (hw : Writes c) : Writes (inFields c sc fs) := by
  obtain ⟨b, hw⟩ := hw
  refine ⟨b, ?_⟩
  rw [Ctx.find, inFields, List.lookup_append, fieldVars_eq, typeAll_none (names_self h (.inr (.inl rfl)))]
  exact hw

theorem encode_variant {o : BytesType} {sc : Scope} {v : Simplify.Variant} (h : fieldsGood o sc v.fields = true) :
    ∃ e, encodeVariant o v = some (.mk (.variant v.name v.fields.kind (v.fields.fields.map (·.name))) e) ∧
      ∀ c, c.opts = o ∧ c.scope = sc ∧ Writes c →
        ∃ m, (den e).plain (inFields c sc v.fields) (some .unit) = some (.unit, m) ∧ VariantBytes o sc v m := by
  have hgood := fieldsGood_iff.1 h
  obtain ⟨ss, he, ho⟩ := encode_fields_all h
  refine ⟨_, by simp only [encodeVariant, he]; rfl, ?_⟩
  rintro c ⟨hc, hs, hw⟩
  have hw' := writes_inFields h hw
  obtain ⟨m1, h1, h2⟩ := call_encVariantId hw' v.id
  obtain ⟨m2, h3, h4⟩ := ho (inFields c sc v.fields) hc hs hw'
    (hasFields_of (rest := c.vars) hgood.2.1 (by simp only [inFields, fieldVars_eq]))
  have hr := (Runs.semi h1).append h3
  refine ⟨_, block_eq (hr.all _), ?_⟩
  intro env args W s vs B hv hwt ha hB
  have h5 := h4 env args W (s.write (Buf.encVariantId v.id)) vs B (hv.write _) hwt ha hB
  have h6 := (M.bind_ok (k := fun _ => m2) (h2 W s)).trans h5
  have h7 := (M.bind_ok (k := fun _ => pureM .unit) h6).trans rfl
  refine ⟨_, inBlock_ok h7, ?_⟩
  simp only [leave, St.write, List.append_assoc]

/-- The function `size` of an enum. -/
theorem size_enum {o : BytesType} {sc : Scope} {e : Simplify.Enum} (h : itemGood o sc (.enum e) = true) :
    ∃ i, sizeEnum o e = some i ∧ ∀ c, At c o sc (.enum e) →
      ∃ m, seqSem (denStmts i.body) c (some .usize) = some (.usize, m) ∧
        ∀ env abs args W s i vs B, env abs = some (Build.lowerItem sc.look (.enum e)) →
          s.vars.lookup "self" = some (.val (.enum i vs)) →
          wt env (.ext abs args) (.enum i vs) = true → SizeAgree o sc.arity env args B W → (∀ v, v ∈ vs → sizeOf v ≤ B) →
          ∃ s', m W s = .ok (.usize (Codegen.size env (.ext abs args) (.enum i vs))) s' := by
  simp only [itemGood, Bool.and_eq_true, Bool.not_eq_true', decide_eq_true_eq, List.all_eq_true] at h
  obtain ⟨⟨hne, hnd⟩, hv⟩ := h
  obtain ⟨arms, ha1, ha2⟩ := arms_all (f := sizeVariant o) (lv := lowVariant sc) (T := .usize) (P := VariantSize o sc)
    (C := fun c => c.opts = o ∧ c.scope = sc) e.variants (fun v hm => by
      obtain ⟨hkw, hg⟩ := hv v hm
      obtain ⟨x, h1, h2⟩ := size_variant hg
      refine ⟨x, by rw [lowVariant_names]; exact h1, by rw [lowVariant_names]; exact namesOk_good hg, hkw, ?_⟩
      intro c hc
      obtain ⟨m, h3, h4⟩ := h2 c hc
      exact ⟨m, by rw [lowVariant_names]; exact h3, h4⟩)
  refine ⟨_, by simp only [sizeEnum, ha1]; rfl, ?_⟩
  intro c ha
  obtain ⟨t, b, n, as, rfl, hf, ht⟩ := ha.var
  have hgen : sc.generics = e.generics := ha.generics
  have hs : c.self = .enum (e.variants.map (lowVariant sc)) := by
    rw [ha.self]
    simp only [Build.lowerItem, ← hgen]
    rfl
  obtain ⟨ms, h1, h2⟩ := ha2 c ⟨ha.opts, ha.scope⟩
  have hnd' : ((e.variants.map (lowVariant sc)).map (·.name)).Nodup := by
    rw [List.map_map]
    exact hnd
  have hne' : e.variants.map (lowVariant sc) ≠ [] := by
    intro hc
    rw [List.map_eq_nil_iff] at hc
    simp [hc] at hne
  obtain ⟨m, hm, hm'⟩ := match_self (T := .usize) hs hf ht hnd' hne' rfl (fun e => nomatch e) h1
  refine ⟨m, hm, ?_⟩
  intro env abs args W s i vs B henv hl hwt hag hB
  have henv' : env abs = some (.enum (e.variants.map (lowVariant sc))) := by rw [henv, ← ha.self, hs]
  rw [wt.eq_def] at hwt
  simp only [Schema.Ty.strip, henv', List.getElem?_map] at hwt
  cases hi : e.variants[i]? with
  | none => simp [hi] at hwt
  | some v =>
    simp only [hi, Option.map_some, Bool.and_eq_true, lowVariant, lowFields_eq] at hwt
    obtain ⟨mi, h3, h4⟩ := h2 i v hi
    have hmem := List.mem_of_getElem? hi
    obtain ⟨_, hg⟩ := hv v hmem
    have hgood := fieldsGood_iff.1 hg
    obtain ⟨s', h5⟩ := h4 env args W { s with vars := bindAll (v.fields.fields.map (·.name)) (vs.map .val) ++ s.vars } vs B
      (hasVals_of hgood.2.1 (by rw [wtFields_length hwt.2.2]; simp [lowFields]) rfl) hwt.2.2 hag hB
    have hiv : (e.variants.map (lowVariant sc))[i]? = some (lowVariant sc v) := by simp [hi]
    have h6 := hm' W s i (lowVariant sc v) mi vs hl hiv h3
    rw [lowVariant_names] at h6
    rw [show Codegen.size env (.ext abs args) (.enum i vs) = Buf.sizeVariantId v.id + if v.fields.kind = .unit then 0
      else Codegen.sizeFields env (lowFields sc args v.fields.fields) vs + Buf.endMarkerSize by
        rw [Codegen.size.eq_def]
        simp only [Schema.Ty.strip, henv', hiv, lowVariant, lowFields_eq]
        rfl]
    exact ⟨_, h6.trans (withFields_ok h5)⟩

/-- The function `encode` of an enum. -/
theorem encode_enum {o : BytesType} {sc : Scope} {e : Simplify.Enum} (h : itemGood o sc (.enum e) = true) :
    ∃ i, encodeEnum o e = some i ∧ ∀ c, At c o sc (.enum e) → Writes c →
      ∃ m, seqSem (denStmts i.body) c (some .unit) = some (.unit, m) ∧
        ∀ env abs args W s i vs B, env abs = some (Build.lowerItem sc.look (.enum e)) →
          s.vars.lookup "self" = some (.val (.enum i vs)) →
          wt env (.ext abs args) (.enum i vs) = true → Agrees o sc.arity env args B W → (∀ v, v ∈ vs → sizeOf v ≤ B) →
          ∃ s', m W s = .ok .unit s' ∧ s'.output = s.output ++ Codegen.enc env false (.ext abs args) (.enum i vs) := by
  simp only [itemGood, Bool.and_eq_true, Bool.not_eq_true', decide_eq_true_eq, List.all_eq_true] at h
  obtain ⟨⟨hne, hnd⟩, hv⟩ := h
  obtain ⟨arms, ha1, ha2⟩ := arms_all (f := encodeVariant o) (lv := lowVariant sc) (T := .unit) (P := VariantBytes o sc)
    (C := fun c => c.opts = o ∧ c.scope = sc ∧ Writes c) e.variants (fun v hm => by
      obtain ⟨hkw, hg⟩ := hv v hm
      obtain ⟨x, h1, h2⟩ := encode_variant hg
      refine ⟨x, by rw [lowVariant_names]; exact h1, by rw [lowVariant_names]; exact namesOk_good hg, hkw, ?_⟩
      intro c hc
      obtain ⟨m, h3, h4⟩ := h2 c hc
      exact ⟨m, by rw [lowVariant_names]; exact h3, h4⟩)
  refine ⟨_, by simp only [encodeEnum, ha1]; rfl, ?_⟩
  intro c ha hw
  obtain ⟨t, b, n, as, rfl, hf, ht⟩ := ha.var
  have hgen : sc.generics = e.generics := ha.generics
  have hs : c.self = .enum (e.variants.map (lowVariant sc)) := by
    rw [ha.self]
    simp only [Build.lowerItem, ← hgen]
    rfl
  obtain ⟨ms, h1, h2⟩ := ha2 c ⟨ha.opts, ha.scope, hw⟩
  have hnd' : ((e.variants.map (lowVariant sc)).map (·.name)).Nodup := by
    rw [List.map_map]
    exact hnd
  have hne' : e.variants.map (lowVariant sc) ≠ [] := by
    intro hc
    rw [List.map_eq_nil_iff] at hc
    simp [hc] at hne
  obtain ⟨m, hm, hm'⟩ := match_self (T := .unit) hs hf ht hnd' hne' rfl (fun e => nomatch e) h1
  refine ⟨m, hm, ?_⟩
  intro env abs args W s i vs B henv hl hwt hag hB
  have henv' : env abs = some (.enum (e.variants.map (lowVariant sc))) := by rw [henv, ← ha.self, hs]
  rw [wt.eq_def] at hwt
  simp only [Schema.Ty.strip, henv', List.getElem?_map] at hwt
  cases hi : e.variants[i]? with
  | none => simp [hi] at hwt
  | some v =>
    simp only [hi, Option.map_some, Bool.and_eq_true, lowVariant, lowFields_eq] at hwt
    obtain ⟨mi, h3, h4⟩ := h2 i v hi
    have hmem := List.mem_of_getElem? hi
    obtain ⟨_, hg⟩ := hv v hmem
    have hgood := fieldsGood_iff.1 hg
    obtain ⟨s', h5, h5'⟩ := h4 env args W { s with vars := bindAll (v.fields.fields.map (·.name)) (vs.map .val) ++ s.vars } vs B
      (hasVals_of hgood.2.1 (by rw [wtFields_length hwt.2.2]; simp [lowFields]) rfl) hwt.2.2 hag hB
    have hiv : (e.variants.map (lowVariant sc))[i]? = some (lowVariant sc v) := by simp [hi]
    have h6 := hm' W s i (lowVariant sc v) mi vs hl hiv h3
    rw [lowVariant_names] at h6
    rw [show Codegen.enc env false (.ext abs args) (.enum i vs) = Buf.encVariantId v.id ++ if v.fields.kind = .unit then []
      else Codegen.encFields env (lowFields sc args v.fields.fields) vs ++ Varint.encodeU (BitVec.ofNat 32 Buf.endMarker) by
        rw [Codegen.enc.eq_def]
        simp only [Schema.Ty.strip, henv', hiv, lowVariant, lowFields_eq]
        rfl]
    exact ⟨_, h6.trans (withFields_ok h5), h5'⟩

end Mabo.Rust
