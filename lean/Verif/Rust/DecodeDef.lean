import Verif.Rust.DecodeItem
import Verif.Rust.EncodeKnot
/-!
The generated function `decode` as a whole.
-/
namespace Mabo.Rust
open Mabo.Buf Mabo.Codegen
open Mabo.Schema (Prim Ty Val Env FieldKind)

/-- What is known inside of the function `decode`. -/
structure AtDec (c : Ctx) (o : BytesType) (sc : Scope) (it : Build.Item) : Prop where
  opts : c.opts = o
  scope : c.scope = sc
  self : c.self = Build.lowerItem sc.look it
  generics : sc.generics = it.generics
  reader : Reader c

/-- The function reads what the model says. -/
def DecOk (o : BytesType) (sc : Scope) (d : Schema.Def) (m : M) : Prop :=
  ∀ dext args W s, (∀ n as, Local (dext n as)) → DecAgree o sc.arity dext args W →
    OutRes (m W s) (decDef (decTy dext true) args d s.input)

theorem lowerFields_tys (sc : Scope) (fs : Simplify.Fields) :
    (Build.lowerFields sc.look sc.generics fs).fields.map (·.ty) = fs.fields.map fun f => low sc f.ty := by
  simp only [Build.lowerFields, List.map_map]
  rfl

/-- The function `decode` of a struct. -/
theorem decode_struct {o : BytesType} {sc : Scope} (hp : sc.values "Ok" = false) {st : Simplify.Struct}
    (h : fieldsGood o sc st.fields = true) :
    ∃ i, decodeStruct o st = some i ∧ ∀ c, AtDec c o sc (.struct st) →
      ∃ m, seqSem (denStmts i.body) c (some (.result (.own c.selfTy))) = some (.result (.own c.selfTy), m) ∧
        DecOk o sc (Build.lowerItem sc.look (.struct st)) m := by
  obtain ⟨body, h1, _, h2⟩ := decode_fields hp h none
  refine ⟨_, by simp only [decodeStruct, h1]; rfl, ?_⟩
  intro c ha
  have hgen : sc.generics = st.generics := ha.generics
  have hself : c.self = .struct (Build.lowerFields sc.look sc.generics st.fields) := by rw [ha.self, ha.generics]; rfl
  obtain ⟨m, h3, h4⟩ := h2 c .struct ha.opts ha.scope ha.reader (by
    intro c' es ms exp hs ht hi
    rw [← lowerFields_tys] at hi
    simp only [buildSem, hs, hself, namesOk_good h, if_true, hi, ht, Option.bind_eq_bind, Option.bind_some])
  refine ⟨m, h3, ?_⟩
  intro dext args W s hl hd
  have := h4 dext args W s hl hd
  rw [hgen] at this
  exact this

/-! ### Enums -/

theorem inBlock_res {m : M} {W : World} {s : St} {x : Res Val} (h : OutRes (m W s) x) : OutRes (inBlock m W s) x := by
  cases x with
  | ok v r' =>
    obtain ⟨s', h, hi⟩ := h
    exact ⟨leave s.vars.length s', by simp only [inBlock, h], hi⟩
  | err e =>
    rcases h with h | ⟨s', h⟩
    · exact .inl (by simp only [inBlock, h])
    · exact .inr ⟨leave s.vars.length s', by simp only [inBlock, h]⟩
  | panic =>
    simp only [OutRes] at h ⊢
    simp only [inBlock, h]
  | hang =>
    simp only [OutRes] at h ⊢
    simp only [inBlock, h]

/-- Arms with numbers, and what follows. -/
theorem arms_lits {c : Ctx} {exp : Option RType} {T : RType} {last : List (Pat × Elab)} {k0 : Nat → M}
    (hT : T.same c.opts T = true) (hT' : T ≠ .never) (hlast : numArms c exp last = some (T, k0)) :
    ∀ {ids : List (BitVec 32)} {es : List Elab} {ms : List M}, es.length = ids.length → ms.length = ids.length →
      (∀ (i : Nat) x m, es[i]? = some x → ms[i]? = some m → x c exp = some (T, m)) →
      ∃ k, numArms c exp ((ids.zip es).map (fun p => (Pat.lit p.1.toNat, p.2)) ++ last) = some (T, k) ∧
        ∀ id : BitVec 32, k id.toNat = ((ids.findIdx? fun i => i == id).bind fun i => ms[i]?).getD (k0 id.toNat)
  | [], [], [], _, _, _ => ⟨k0, hlast, fun id => rfl⟩
  | a :: ids, x :: es, m :: ms, h1, h2, h3 => by
    obtain ⟨k, hk, hk'⟩ := arms_lits hT hT' hlast (ids := ids) (es := es) (ms := ms) (by simpa using h1) (by simpa using h2)
      fun i x m hx hm => h3 (i + 1) x m hx hm
    have hx := h3 0 x m rfl rfl
    have hj : joinTy c.opts T T = some T := by
      cases T <;> first | exact absurd rfl hT' | simp only [joinTy, hT, if_true]
    refine ⟨_, by
      simp only [List.zip_cons_cons, List.map_cons, List.cons_append, numArms, hx, hk, hj, a.isLt, if_true,
        Option.bind_eq_bind, Option.bind_some]
      rfl, ?_⟩
    intro id
    rw [List.findIdx?_cons]
    by_cases he : a = id
    · subst he
      simp
    · have hne : id.toNat ≠ a.toNat := fun h => he (BitVec.eq_of_toNat_eq h.symm)
      have hb : (a == id) = false := by simpa using he
      simp only [hb, if_neg hne, hk']
      cases ids.findIdx? fun i => i == id <;> simp
  | [], _ :: _, _, h1, _, _ => by simp at h1
  | [], [], _ :: _, _, h2, _ => by simp at h2
  | _ :: _, [], _, h1, _, _ => by simp at h1
  | _ :: _, _ :: _, [], _, h2, _ => by simp at h2

/-- `id => Err(::mabo::buf::Error::UnknownVariant(id))` -/
theorem unknown_arm {sc : Scope} (hp : sc.values "Err" = false) {c : Ctx} (hs : c.scope = sc) {t : RType} :
    ∃ k, numArms c (some (.result t)) [(.bind "id", (den (.wrap .err (.unknown (.var "id")))).plain)] = some (.result t, k) ∧
      ∀ n W s, ∃ s', k n W s = .ok (.fail (.unknownVariant n)) s' := by
  have hv : (c.push "id" .u32 false).scope.values "Err" = false := by
    show c.scope.values "Err" = false
    rw [hs]
    exact hp
  have hvar : (den (.var "id")).plain.check (c.push "id" .u32 false) .u32 = some (lookM "id") := by
    refine check_same (u := .u32) ?_ (by simp [RType.u32, RType.same])
    rw [den, Arg.expr]
    rfl
  have hu : ∃ m, (den (.unknown (.var "id"))).plain.check (c.push "id" .u32 false) .error = some m ∧
      ∀ W s n, s.vars.lookup "id" = some (.val (.num n)) → m W s = .ok (.error (.unknownVariant n)) s := by
    refine ⟨_, check_same (u := .error) (by
      rw [den, Arg.expr]
      simp only [unknownSem, hvar, Option.bind_eq_bind, Option.bind_some]
      rfl) rfl, ?_⟩
    intro W s n hl
    have hlook : lookM "id" W s = .ok (.val (.num n)) s := by simp only [lookM, hl]
    simp only [M.bind, hlook, Out.bind, onVal, pureM]
  obtain ⟨m, h1, h2⟩ := hu
  refine ⟨_, by
    simp only [numArms]
    rw [den, Arg.expr]
    simp only [wrapSem, hv, h1, Bool.false_eq_true, if_false, Option.bind_eq_bind, Option.bind_some]
    rfl, ?_⟩
  intro n W s
  have h3 := h2 W { s with vars := ("id", .val (.num n)) :: s.vars } n rfl
  exact ⟨leave s.vars.length { s with vars := ("id", .val (.num n)) :: s.vars },
    by simp only [inBlock, M.bind, h3, Out.bind, pureM]⟩

theorem variantId_member {c : Ctx} (hr : Reader c) :
    ∃ m, (den (.member (.try (.call .decVariantId [r])) .value)).plain c none = some (.u32, m) ∧ ∀ W s, m W s =
      match Buf.decVariantId s.input with
      | .ok id r => .ok (.val (.num id.toNat)) { s with input := r }
      | .err e => .ret e
      | .panic => .panic
      | .hang => .hang := by
  obtain ⟨t, ht⟩ := hr.ret
  have h1 : (den (.call .decVariantId [r])).plain c none =
      some (.result .variantId, readM fun _ s => (Buf.decVariantId s.input).map .variantId) := by
    rw [den, Arg.expr]
    simp only [denList, callSem, hr.arg, Option.bind_eq_bind, Option.bind_some]
  have h2 : ∃ m, (den (.try (.call .decVariantId [r]))).plain c none = some (.variantId, m) ∧ ∀ W s, m W s =
      match Buf.decVariantId s.input with
      | .ok id r => .ok (.variantId id) { s with input := r }
      | .err e => .ret e
      | .panic => .panic
      | .hang => .hang := by
    refine ⟨_, by
      rw [den, Arg.expr]
      simp only [trySem, Option.map_none, h1, ht, Option.bind_eq_bind, Option.bind_some]
      rfl, ?_⟩
    intro W s
    simp only [M.bind, readM]
    cases Buf.decVariantId s.input <;> rfl
  obtain ⟨m, h3, h4⟩ := h2
  refine ⟨_, by
    rw [den, Arg.expr]
    simp only [memberSem, h3, Option.bind_eq_bind, Option.bind_some]
    rfl, ?_⟩
  intro W s
  simp only [M.bind, h4 W s]
  cases Buf.decVariantId s.input <;> rfl

/-- What the arm of a variant reads. -/
def VariantReads (o : BytesType) (sc : Scope) (v : Simplify.Variant) (i : Nat) (m : M) : Prop :=
  ∀ dext args W s, (∀ n as, Local (dext n as)) → DecAgree o sc.arity dext args W →
    OutRes (m W s) ((decFields (decTy dext true) ((lowVariant sc v).fields.subst args) s.input).map (.enum i))

theorem decode_variant {o : BytesType} {sc : Scope} (hp : sc.values "Ok" = false) {v : Simplify.Variant}
    (h : fieldsGood o sc v.fields = true) (hkw : keywords.contains v.name = false) :
    ∃ e, decodeVariant o v = some (.mk (.lit v.id.toNat) e) ∧
      ∀ c vars i, c.opts = o → c.scope = sc → Reader c → c.self = .enum vars → (vars.map (·.name)).Nodup →
        vars[i]? = some (lowVariant sc v) →
        ∃ m, (den e).plain c (some (.result (.own c.selfTy))) = some (.result (.own c.selfTy), m) ∧ VariantReads o sc v i m := by
  obtain ⟨body, h1, hunit, h2⟩ := decode_fields hp h (some v.name)
  refine ⟨_, by simp only [decodeVariant, h1]; rfl, ?_⟩
  intro c vars i hc hs hr hself hn hi
  obtain ⟨m, h3, h4⟩ := h2 c (.enum i) hc hs hr (by
    intro c' es ms exp hs' ht hi'
    rw [← lowerFields_tys] at hi'
    have hfind : findVariant v.name vars = some (i, Build.lowerFields sc.look sc.generics v.fields) := findVariant_get hn hi
    simp only [buildSem, hs', hself, hfind, namesOk_good h, hkw, Bool.not_false, Bool.and_self, if_true, hi', ht,
      Option.bind_eq_bind, Option.bind_some])
  by_cases hk : v.fields.kind = .unit
  · rw [hunit hk] at h3
    simp only [denStmts, denStmt, seqSem] at h3
    refine ⟨m, by rw [if_pos hk]; exact h3, ?_⟩
    exact fun dext args W s hl hd => h4 dext args W s hl hd
  · refine ⟨inBlock m, by rw [if_neg hk]; exact block_eq h3, ?_⟩
    exact fun dext args W s hl hd => inBlock_res (h4 dext args W s hl hd)

/-- The arms of all variants. -/
theorem decode_variants {o : BytesType} {sc : Scope} (hp : sc.values "Ok" = false) : ∀ vs : List Simplify.Variant,
    (∀ v, v ∈ vs → fieldsGood o sc v.fields = true ∧ keywords.contains v.name = false) →
    ∃ arms, all (vs.map (decodeVariant o)) = some arms ∧
      ∀ c vars j, c.opts = o → c.scope = sc → Reader c → c.self = .enum vars → (vars.map (·.name)).Nodup →
        vars.drop j = vs.map (lowVariant sc) →
        ∃ (es : List Elab) (ms : List M), denArms arms = ((vs.map (·.id)).zip es).map (fun p => (Pat.lit p.1.toNat, p.2)) ∧
          es.length = vs.length ∧ ms.length = vs.length ∧
          (∀ (i : Nat) x m, es[i]? = some x → ms[i]? = some m →
            x c (some (.result (.own c.selfTy))) = some (.result (.own c.selfTy), m)) ∧
          ∀ (i : Nat) v m, vs[i]? = some v → ms[i]? = some m → VariantReads o sc v (j + i) m
  | [], _ => ⟨[], rfl, fun c vars j _ _ _ _ _ _ => ⟨[], [], rfl, rfl, rfl, fun i x m h => by simp at h, fun i v m h => by simp at h⟩⟩
  | v :: vs, hv => by
    obtain ⟨hg, hkw⟩ := hv v (List.mem_cons_self ..)
    obtain ⟨e, h1, h2⟩ := decode_variant hp hg hkw
    obtain ⟨arms, h3, h4⟩ := decode_variants hp vs fun x hx => hv x (List.mem_cons_of_mem _ hx)
    refine ⟨.mk (.lit v.id.toNat) e :: arms, by simp only [List.map_cons, all, h1, h3], ?_⟩
    intro c vars j hc hs hr hself hn hd
    have hj : vars[j]? = some (lowVariant sc v) := by
      have := congrArg (fun l => l[0]?) hd
      simpa using this
    have hd' : vars.drop (j + 1) = vs.map (lowVariant sc) := by
      rw [← List.drop_drop, hd]
      rfl
    obtain ⟨m, h5, h6⟩ := h2 c vars j hc hs hr hself hn hj
    obtain ⟨es, ms, h7, h8, h9, h10, h11⟩ := h4 c vars (j + 1) hc hs hr hself hn hd'
    refine ⟨(den e).plain :: es, m :: ms, by simp only [denArms, h7, List.map_cons, List.zip_cons_cons], by simp [h8],
      by simp [h9], ?_, ?_⟩
    · intro i x m' hx hm
      cases i with
      | zero =>
        simp only [List.getElem?_cons_zero, Option.some.injEq] at hx hm
        subst hx hm
        exact h5
      | succ i => exact h10 i x m' hx hm
    · intro i x m' hx hm
      cases i with
      | zero =>
        simp only [List.getElem?_cons_zero, Option.some.injEq] at hx hm
        subst hx hm
        exact h6
      | succ i =>
        have := h11 i x m' hx hm
        rw [show j + (i + 1) = j + 1 + i by omega]
        exact this

/-- The function `decode` of an enum. -/
theorem decode_enum {o : BytesType} {sc : Scope} (hp : sc.values "Ok" = false) (he : sc.values "Err" = false) {e : Simplify.Enum}
    (h : itemGood o sc (.enum e) = true) :
    ∃ i, decodeEnum o e = some i ∧ ∀ c, AtDec c o sc (.enum e) →
      ∃ m, seqSem (denStmts i.body) c (some (.result (.own c.selfTy))) = some (.result (.own c.selfTy), m) ∧
        DecOk o sc (Build.lowerItem sc.look (.enum e)) m := by
  simp only [itemGood, Bool.and_eq_true, Bool.not_eq_true', decide_eq_true_eq, List.all_eq_true] at h
  obtain ⟨⟨_, hnd⟩, hv⟩ := h
  obtain ⟨arms, h1, h2⟩ := decode_variants hp e.variants fun v hm => ⟨(hv v hm).2, (hv v hm).1⟩
  refine ⟨_, by simp only [decodeEnum, h1]; rfl, ?_⟩
  intro c ha
  have hgen : sc.generics = e.generics := ha.generics
  have hself : c.self = .enum (e.variants.map (lowVariant sc)) := by
    rw [ha.self]
    simp only [Build.lowerItem, ← hgen]
    rfl
  obtain ⟨es, ms, h3, h4, h5, h6, h7⟩ := h2 c (e.variants.map (lowVariant sc)) 0 ha.opts ha.scope ha.reader hself
    (by rw [List.map_map]; exact hnd) (by simp)
  obtain ⟨k0, h8, h9⟩ := unknown_arm he ha.scope (t := .own c.selfTy)
  obtain ⟨k, h10, h11⟩ := arms_lits (T := .result (.own c.selfTy)) (ids := e.variants.map (·.id)) (same_result rfl)
    (fun h => nomatch h) h8 (by simpa using h4) (by simpa using h5) h6
  obtain ⟨mi, h12, h13⟩ := variantId_member ha.reader
  have harms : numArms c (some (.result (.own c.selfTy)))
      (denArms (arms ++ [.mk (.bind "id") (.wrap .err (.unknown (.var "id")))])) = some (.result (.own c.selfTy), k) := by
    rw [denArms_append, h3]
    exact h10
  refine ⟨_, by
    simp only [decodeImpl, denStmts, denStmt, seqSem]
    rw [den, Arg.expr]
    simp only [matchSem, h12, RType.u32, harms, Option.bind_eq_bind, Option.bind_some]
    rfl, ?_⟩
  intro dext args W s hl hd
  have hdef : Build.lowerItem sc.look (.enum e) = .enum (e.variants.map (lowVariant sc)) := by rw [← hself, ha.self]
  rw [hdef]
  show OutRes ((mi W s).bind _) ((Buf.decVariantId s.input).bind _)
  rw [h13]
  cases hid : Buf.decVariantId s.input with
  | err x => exact .inl rfl
  | panic => rfl
  | hang => rfl
  | ok id r' =>
    simp only [Out.bind, onVal, Res.bind_ok]
    rw [h11]
    have hidx : (e.variants.map (lowVariant sc)).findIdx? (fun v => v.id == id) =
        (e.variants.map (·.id)).findIdx? fun i => i == id := by
      rw [List.findIdx?_map, List.findIdx?_map]
      rfl
    rw [hidx]
    cases hi : (e.variants.map (·.id)).findIdx? (fun i => i == id) with
    | none =>
      simp only [Option.bind_none, Option.getD_none]
      exact .inr (h9 _ W _)
    | some i =>
      have hlt : i < e.variants.length := by
        have := (List.findIdx?_eq_some_iff_getElem.1 hi).1
        simpa using this
      have hvi : e.variants[i]? = some e.variants[i] := List.getElem?_eq_getElem hlt
      have hmi : ms[i]? = some (ms[i]'(by omega)) := List.getElem?_eq_getElem (by omega)
      have hli : (e.variants.map (lowVariant sc))[i]? = some (lowVariant sc e.variants[i]) := by rw [List.getElem?_map, hvi]; rfl
      simp only [Option.bind_some, hmi, Option.getD_some, hli]
      have := h7 i _ _ hvi hmi dext args W { s with input := r' } hl hd
      rw [Nat.zero_add] at this
      exact this

/-- The emitted function `decode`. -/
theorem runDec_ok {files : Build.Files} {o : BytesType} (hg : CrateGood files o) {abs : List String} {it : Build.Item}
    (hit : Build.itemAt files abs = some it) :
    ∃ m, decodeFn files o abs it = some m ∧ ∀ dext args W, (∀ n as, Local (dext n as)) →
      DecAgree o (arityOf files) dext args W →
      runDec (some m) W = decDef (decTy dext true) args (Build.lowerItem (Build.resolvePath files abs.dropLast) it) := by
  obtain ⟨hp, hgood⟩ := hg abs it hit
  have hat : AtDec (decodeCtx files o abs it) o (scopeAt files abs.dropLast it.generics) it :=
    ⟨rfl, rfl, rfl, rfl, ⟨false, rfl⟩, _, rfl⟩
  have hfn : ∃ m, decodeFn files o abs it = some m ∧
      DecOk o (scopeAt files abs.dropLast it.generics) (Build.lowerItem (Build.resolvePath files abs.dropLast) it) m := by
    cases it with
    | struct st =>
      obtain ⟨i, h1, h2⟩ := decode_struct (by simpa [valuesGood] using hp) hgood
      obtain ⟨m, h3, h4⟩ := h2 _ hat
      exact ⟨m, by simp only [decodeFn, decodeImplOf, h1]; exact check_same h3 (same_result rfl), h4⟩
    | enum e =>
      obtain ⟨i, h1, h2⟩ := decode_enum (by simp [valuesGood] at hp; exact hp.1) (by simp [valuesGood] at hp; exact hp.2) hgood
      obtain ⟨m, h3, h4⟩ := h2 _ hat
      exact ⟨m, by simp only [decodeFn, decodeImplOf, h1]; exact check_same h3 (same_result rfl), h4⟩
  obtain ⟨m, h1, h2⟩ := hfn
  refine ⟨m, h1, ?_⟩
  intro dext args W hl hd
  funext b
  have h3 := h2 dext args W ⟨b, [], [("r", .unit)]⟩ hl hd
  simp only at h3
  cases hx : decDef (decTy dext true) args (Build.lowerItem (Build.resolvePath files abs.dropLast) it) b with
  | ok v r' =>
    rw [hx] at h3
    obtain ⟨s, h4, h5⟩ := h3
    simp only [runDec, h4, h5]
  | err e =>
    rw [hx] at h3
    rcases h3 with h3 | ⟨s, h3⟩ <;> simp only [runDec, h3]
  | panic =>
    rw [hx] at h3
    simp only [OutRes] at h3
    simp only [runDec, h3]
  | hang =>
    rw [hx] at h3
    simp only [OutRes] at h3
    simp only [runDec, h3]

end Mabo.Rust
