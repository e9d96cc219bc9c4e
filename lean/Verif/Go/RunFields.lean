import Verif.Go.RunCodec
/-! The emitted methods encode, measure and decode all fields. -/
namespace Mabo.Go
open Mabo.Simplify Mabo.Spec.GoRun
open Mabo.Schema (Prim FieldKind)
open Mabo.Parse (Text printNat)

/-! ### Variables -/

theorem update_cons (Γ : Env) (x y : Text) (u v : Val) :
    update ((y, v) :: Γ) x u = if x = y then (y, u) :: Γ else (y, v) :: update Γ x u := rfl

theorem update_length (Γ : Env) (x : Text) (u : Val) : (update Γ x u).length = Γ.length := by
  induction Γ with
  | nil => rfl
  | cons b Γ ih =>
    obtain ⟨y, v⟩ := b
    rw [update_cons]; split
    · rfl
    · simp [ih]

theorem lookup_update (Γ : Env) (x y : Text) (u : Val) :
    lookup (update Γ x u) y = if y = x ∧ (lookup Γ x).isSome then some u else lookup Γ y := by
  induction Γ with
  | nil => simp [update, lookup]
  | cons b Γ ih =>
    obtain ⟨z, v⟩ := b
    rw [update_cons]
    by_cases hx : x = z
    · subst hx
      rw [if_pos rfl, lookup_cons, lookup_cons, lookup_cons, if_pos rfl]
      by_cases hy : y = x
      · simp [hy]
      · simp [hy]
    · rw [if_neg hx, lookup_cons, lookup_cons, lookup_cons, if_neg hx, ih]
      by_cases hy : y = z
      · subst hy
        rw [if_pos rfl, if_pos rfl, if_neg fun h => hx h.1.symm]
      · rw [if_neg hy, if_neg hy]

theorem lookup_update_self {Γ : Env} {x : Text} {v : Val} (h : lookup Γ x = some v) (u : Val) : lookup (update Γ x u) x = some u := by
  rw [lookup_update, if_pos ⟨rfl, by rw [h]; rfl⟩]

theorem lookup_update_ne {Γ : Env} {x y : Text} (h : y ≠ x) (u : Val) : lookup (update Γ x u) y = lookup Γ y := by
  rw [lookup_update, if_neg fun hc => h hc.1]

theorem leave_append (ext Γ : Env) (m : Nat) (h : Γ.length = m) : leave m (ext ++ Γ) = Γ := by
  subst h
  simp [leave]

theorem leave_self (Γ : Env) : leave Γ.length Γ = Γ := leave_append [] Γ _ rfl

theorem leave_three (a b c : Text × Val) (Γ : Env) (m : Nat) (h : Γ.length = m) : leave m (a :: b :: c :: Γ) = Γ :=
  leave_append [a, b, c] Γ m h

/-- The names of the variables. -/
def keys (Γ : Env) : List Text := Γ.map (·.1)

theorem keys_update (Γ : Env) (x : Text) (u : Val) : keys (update Γ x u) = keys Γ := by
  induction Γ with
  | nil => rfl
  | cons b Γ ih =>
    obtain ⟨y, v⟩ := b
    rw [update_cons]; split
    · rfl
    · show y :: keys (update Γ x u) = y :: keys Γ
      rw [ih]

theorem lookup_none {Γ : Env} {x : Text} : lookup Γ x = none ↔ x ∉ keys Γ := by
  induction Γ with
  | nil => simp [lookup, keys]
  | cons b Γ ih =>
    obtain ⟨y, v⟩ := b
    rw [lookup_cons]
    by_cases h : x = y
    · simp [h, keys]
    · rw [if_neg h, ih]; simp [keys, h]

theorem lookup_keys {Γ Δ : Env} (h : keys Δ = keys Γ) (x : Text) : lookup Δ x = none ↔ lookup Γ x = none := by
  rw [lookup_none, lookup_none, h]

theorem keys_length {Γ Δ : Env} (h : keys Δ = keys Γ) : Δ.length = Γ.length := by
  have := congrArg List.length h
  simpa [keys] using this

/-- The receiver is the last variable. -/
theorem lookup_leave {x : Text} : ∀ {Δ : Env} {K : List Text}, keys Δ = K ++ [x] → x ∉ K → lookup (leave 1 Δ) x = lookup Δ x := by
  intro Δ
  induction Δ with
  | nil => intro K h; simp [keys] at h
  | cons b Δ ih =>
    intro K h hx
    obtain ⟨y, v⟩ := b
    cases K with
    | nil =>
      have : Δ = [] := by
        have := congrArg List.length h
        simp [keys] at this; exact this
      subst this; rfl
    | cons z K =>
      have hh : y = z ∧ keys Δ = K ++ [x] := by simpa [keys] using h
      have hl : Δ.length ≥ 1 := by
        have := congrArg List.length hh.2
        simp [keys] at this; omega
      have : leave 1 ((y, v) :: Δ) = leave 1 Δ := by
        simp only [leave, List.length_cons]
        rw [show Δ.length + 1 - 1 = (Δ.length - 1) + 1 by omega, List.drop_succ_cons]
      have hne : x ≠ y := fun e => hx (by simp [e, hh.1])
      rw [this, ih hh.2 fun hm => hx (by simp [hm]), lookup_cons, if_neg hne]

/-! ### Statements -/

theorem runAll_nil (ρ : Runtime) (k : Nat) (Γ : Env) : runAll ρ k Γ [] = some (.next Γ) := by rw [runAll]

theorem runAll_next {ρ : Runtime} {k : Nat} {Γ Δ : Env} {s : Stmt} {ss : List Stmt} (h : run ρ k Γ s = some (.next Δ)) :
    runAll ρ k Γ (s :: ss) = runAll ρ k Δ ss := by
  simp only [runAll, h]

theorem runAll_stop {ρ : Runtime} {k : Nat} {Γ : Env} {vs : List Val} {Δ : Env} {s : Stmt} {ss : List Stmt}
    (h : run ρ k Γ s = some (.ret vs Δ)) : runAll ρ k Γ (s :: ss) = some (.ret vs Δ) := by
  simp only [runAll, h]

theorem runAll_append {ρ : Runtime} {k : Nat} {ss ts : List Stmt} : ∀ {Γ Δ : Env}, runAll ρ k Γ ss = some (.next Δ) →
    runAll ρ k Γ (ss ++ ts) = runAll ρ k Δ ts := by
  induction ss with
  | nil => intro Γ Δ h; rw [runAll_nil] at h; cases h; rfl
  | cons s ss ih =>
    intro Γ Δ h
    simp only [runAll] at h
    cases hs : run ρ k Γ s with
    | none => simp [hs] at h
    | some o =>
      cases o with
      | next E => simp only [hs] at h; rw [List.cons_append, runAll_next hs]; exact ih h
      | brk E => simp [hs] at h
      | ret vs E => simp [hs] at h

theorem runAll_append_ret {ρ : Runtime} {k : Nat} {ss ts : List Stmt} {vs : List Val} : ∀ {Γ Δ : Env},
    runAll ρ k Γ ss = some (.ret vs Δ) → runAll ρ k Γ (ss ++ ts) = some (.ret vs Δ) := by
  induction ss with
  | nil => intro Γ Δ h; rw [runAll_nil] at h; cases h
  | cons s ss ih =>
    intro Γ Δ h
    simp only [runAll] at h
    cases hs : run ρ k Γ s with
    | none => simp [hs] at h
    | some o =>
      cases o with
      | next E => simp only [hs] at h; rw [List.cons_append, runAll_next hs]; exact ih h
      | brk E => simp [hs] at h
      | ret us E => simp only [hs, Option.some.injEq] at h; rw [List.cons_append, runAll_stop hs, h]

theorem run_blank (ρ : Runtime) (k : Nat) (Γ : Env) : run ρ k Γ .blank = some (.next Γ) := by rw [run]

theorem run_assign {ρ : Runtime} {k : Nat} {Γ Δ : Env} {x e : Expr} {v : Val} (h : Is ρ Γ e v) (hs : store Γ v x = some Δ) :
    run ρ k Γ (.assign x e) = some (.next Δ) := by
  rw [run, h.bind]; simp [hs]

theorem run_define {ρ : Runtime} {k : Nat} {Γ Δ : Env} {xs : List Text} {e : Expr} {vs : List Val} (h : valueOf ρ Γ e = some vs)
    (hs : define Γ xs vs = some Δ) : run ρ k Γ (.define xs e) = some (.next Δ) := by
  rw [valueOf] at h
  rw [run, h]; simp [hs]

theorem store_var {Γ : Env} {x : Text} {u v : Val} (h : lookup Γ x = some u) : store Γ v (.id x) = some (update Γ x v) := by
  simp [store, h]

theorem store_field {Γ : Env} {x f t : Text} {g : Text → Val} {v : Val} (h : lookup Γ x = some (.obj t g)) :
    store Γ v (.sel (.id x) f) = some (update Γ x (.obj t fun y => if y = f then v else g y)) := by
  simp [store, h]

theorem Is.value {ρ : Runtime} {Γ : Env} {e : Expr} {v : Val} (h : valueOf ρ Γ e = some [v]) : Is ρ Γ e v := by
  rw [valueOf, Option.bind_eq_some_iff] at h
  obtain ⟨r, h1, h2⟩ := h
  exact ⟨r, h1, by simp only [Res.value, h2]⟩

theorem Is.valueOf {ρ : Runtime} {Γ : Env} {e : Expr} {v : Val} (h : Is ρ Γ e v) : valueOf ρ Γ e = some [v] := by
  obtain ⟨r, h1, h2⟩ := h
  rw [Go.valueOf, h1, Option.bind_some]
  simp only [Res.value] at h2
  split at h2
  · rename_i u hu; rw [hu]; injection h2 with h2; rw [h2]
  · cases h2

theorem Is.nat (ρ : Runtime) (Γ : Env) (i : Nat) : Is ρ Γ (.nat i) (.num i) := ⟨.vals [.num i], by rw [eval], rfl⟩

theorem Is.nil {ρ : Runtime} {Γ : Env} (h : lookup Γ (n "nil") = none) : Is ρ Γ (.id (n "nil")) .nil := ⟨_, eval_nil h, rfl⟩

theorem Is.true {ρ : Runtime} {Γ : Env} (h : lookup Γ (n "true") = none) : Is ρ Γ (.id (n "true")) (.bool true) := ⟨_, eval_true h, rfl⟩

theorem Is.false {ρ : Runtime} {Γ : Env} (h : lookup Γ (n "false") = none) : Is ρ Γ (.id (n "false")) (.bool false) :=
  ⟨_, eval_false h, rfl⟩

theorem Is.field {ρ : Runtime} {Γ : Env} {x f t : Text} {g : Text → Val} (h : lookup Γ x = some (.obj t g)) :
    Is ρ Γ (.sel (.id x) f) (g f) :=
  ⟨.member (.obj t g) f, by simp [eval, name, h, Res.value, Res.values], rfl⟩

theorem Is.const {ρ : Runtime} {Γ : Env} {x : Text} {v : Val} (h : lookup Γ (n "buf") = none) (hc : ρ.const x = some v) :
    Is ρ Γ (buf x) v := ⟨_, eval_buf h x, by simp [Res.value, Res.values, hc]⟩

theorem Is.addr {ρ : Runtime} {Γ : Env} {e : Expr} {v : Val} (h : Is ρ Γ e v) : Is ρ Γ (.addr e) (.ptr v) :=
  ⟨.vals [.ptr v], by rw [eval, h.bind]; rfl, rfl⟩

theorem Is.ne {ρ : Runtime} {Γ : Env} {a b : Expr} {u v : Val} {c : Bool} (h1 : Is ρ Γ a u) (h2 : Is ρ Γ b v) (h : same u v = some c) :
    Is ρ Γ (.ne a b) (.bool !c) :=
  ⟨.vals [.bool !c], by rw [eval, h1.bind, h2.bind]; simp [h], rfl⟩

theorem Is.not {ρ : Runtime} {Γ : Env} {a : Expr} {c : Bool} (h1 : Is ρ Γ a (.bool c)) : Is ρ Γ (.not a) (.bool !c) :=
  ⟨.vals [.bool !c], by rw [eval, h1.bind]; simp [Val.isBool], rfl⟩

theorem run_if_false {ρ : Runtime} {k : Nat} {Γ : Env} {c : Expr} {body : List Stmt} (h : Is ρ Γ c (.bool false)) :
    run ρ k Γ (.ifThen c body) = some (.next Γ) := by
  rw [run, h.bind]; simp [Val.isBool]

theorem run_if_true {ρ : Runtime} {k : Nat} {Γ : Env} {c : Expr} {body : List Stmt} (h : Is ρ Γ c (.bool true)) :
    run ρ k Γ (.ifThen c body) = (runAll ρ k Γ body).map (Out.leave Γ.length) := by
  rw [run, h.bind]; simp [Val.isBool]

/-! ### Encoding -/

theorem encField_plain {f : Field} (h : isOption f.ty = false) : encFieldTree f =
    (encTree (.sel (var "v") (fieldName f)) f.ty).map fun x => .assign (var "w") (.call (buf (n "EncodeField"))
      [var "w", .nat f.id.toNat, .func true [(n "w", byteSlice)] [byteSlice] (returns x)]) := by
  obtain ⟨c, x, t, i⟩ := f
  cases t <;> first | (cases h; done) | (simp only [encFieldTree]; cases encTree _ _ <;> rfl)

theorem sizeField_plain {f : Field} (h : isOption f.ty = false) : sizeFieldTree f =
    (sizeTree (.sel (var "v") (fieldName f)) f.ty).map fun x => .addAssign (var "size") (.call (buf (n "SizeField"))
      [.nat f.id.toNat, .func false [] [named "int"] (returns x)]) := by
  obtain ⟨c, x, t, i⟩ := f
  cases t <;> first | (cases h; done) | (simp only [sizeFieldTree]; cases sizeTree _ _ <;> rfl)

/-- What is sent for a field: nothing if it is optional, otherwise its id and value. -/
def chunk (tag : Nat → List UInt8) (bs : Field → List UInt8) (f : Field) : List UInt8 :=
  if isOption f.ty then [] else tag f.id.toNat ++ bs f

/-- The fields can be sent: those that are optional are nil, and the others are encoded as in `bs`. -/
structure Sent (ρ : Runtime) (g : Text → Val) (bs : Field → List UInt8) (f : Field) : Prop where
  nil : isOption f.ty = true → g (fieldName f) = .nil
  coded : isOption f.ty = false →
    TyCoded ρ (encTree · f.ty) (sizeTree · f.ty) (decTree f.ty) (g (fieldName f)) (g (fieldName f)) (bs f)

/-- The variables of an encoding method. -/
structure EncVars (Γ : Env) (t : Text) (g : Text → Val) (w : List UInt8) : Prop where
  buf : lookup Γ (n "buf") = none
  v : lookup Γ (n "v") = some (.obj t g)
  w : lookup Γ (n "w") = some (.bytes w)

theorem EncVars.set {Γ : Env} {t : Text} {g : Text → Val} {w : List UInt8} (h : EncVars Γ t g w) (w' : List UInt8) :
    EncVars (update Γ (n "w") (.bytes w')) t g w' :=
  ⟨by rw [lookup_update_ne (by decide)]; exact h.buf, by rw [lookup_update_ne (by decide)]; exact h.v, lookup_update_self h.w _⟩

theorem enc_field {ρ : Runtime} {Leaf : Prim → Val → Prop} {tag : Nat → List UInt8} (hf : Faithful ρ Leaf tag) (ho : FieldOptions ρ tag)
    {k : Nat} {Γ : Env} {t : Text} {g : Text → Val} {w : List UInt8} (hΓ : EncVars Γ t g w) {bs : Field → List UInt8} {f : Field}
    (hs : Sent ρ g bs f) {s : Stmt} (he : encFieldTree f = some s) :
    run ρ k Γ s = some (.next (update Γ (n "w") (.bytes (w ++ chunk tag bs f)))) := by
  cases hopt : isOption f.ty with
  | false =>
    rw [encField_plain hopt, Option.map_eq_some_iff] at he
    obtain ⟨x, hx, rfl⟩ := he
    have hcl : closure ρ Γ [(n "w", byteSlice)] (returns x) [.bytes (w ++ tag f.id.toNat)] =
        some [.bytes (w ++ tag f.id.toNat ++ bs f)] := by
      have hd : define Γ [n "w"] [.bytes (w ++ tag f.id.toNat)] = some ((n "w", .bytes (w ++ tag f.id.toNat)) :: Γ) := rfl
      have hv := (hs.coded hopt).enc ((n "w", .bytes (w ++ tag f.id.toNat)) :: Γ) _ x (w ++ tag f.id.toNat) hx
        (by rw [lookup_cons, if_neg (by decide), hΓ.buf])
        (Is.field (by rw [lookup_cons, if_neg (by decide)]; exact hΓ.v)) (by rw [lookup_cons, if_pos rfl])
      simp only [closure, List.map_cons, List.map_nil, hd, Option.bind_some, runAll_ret hv, Out.result]
    refine run_assign (Is.value ?_) (store_var hΓ.w)
    refine (value_call (eval_buf hΓ.buf _) (evalArgs_val (.var hΓ.w) (evalArgs_val (.nat _ _ _) (evalArgs_fn (evalArgs_nil _ _))))).trans ?_
    have := hf.field f.id.toNat _ w _ hcl
    rw [List.append_assoc] at this
    rw [chunk, hopt]
    exact this
  | true =>
    have hn := hs.nil hopt
    obtain ⟨c, x, ty, i⟩ := f
    cases ty <;> try (cases hopt; done)
    simp only [encFieldTree, Option.bind_eq_bind, Option.bind_eq_some_iff, Option.pure_def, Option.some.injEq] at he
    obtain ⟨g', _, y, hy, rfl⟩ := he
    refine run_assign (Is.value ?_) (store_var hΓ.w)
    refine (value_call (eval_inst hΓ.buf _ _) (evalArgs_val (.var hΓ.w) (evalArgs_val (.nat _ _ _)
      (evalArgs_val (Is.addr (Is.field hΓ.v)) (evalArgs_fn (evalArgs_nil _ _)))))).trans ?_
    rw [show fieldName ⟨c, x, .option _, i⟩ = fieldName ⟨c, x, .option _, i⟩ from rfl, hn, ho.none]
    simp [chunk, isOption]

theorem enc_fields {ρ : Runtime} {Leaf : Prim → Val → Prop} {tag : Nat → List UInt8} (hf : Faithful ρ Leaf tag) (ho : FieldOptions ρ tag)
    {k : Nat} {t : Text} {g : Text → Val} {bs : Field → List UInt8} : ∀ {fs : List Field} {ss : List Stmt} {Γ : Env}
    {w : List UInt8}, EncVars Γ t g w → (∀ f ∈ fs, Sent ρ g bs f) → allOf encFieldTree fs = some ss →
    ∃ Δ, runAll ρ k Γ ss = some (.next Δ) ∧ EncVars Δ t g (w ++ fs.flatMap (chunk tag bs)) ∧ keys Δ = keys Γ := by
  intro fs
  induction fs with
  | nil =>
    intro ss Γ w hΓ _ h
    simp only [allOf, Option.some.injEq] at h; subst h
    exact ⟨Γ, runAll_nil _ _ _, by simpa using hΓ, rfl⟩
  | cons f fs ih =>
    intro ss Γ w hΓ hs h
    simp only [allOf, Option.bind_eq_bind, Option.bind_eq_some_iff, Option.pure_def, Option.some.injEq] at h
    obtain ⟨s, h1, ss', h2, rfl⟩ := h
    have hr := enc_field hf ho (k := k) hΓ (hs f (by simp)) h1
    obtain ⟨Δ, h3, h4, h5⟩ := ih (hΓ.set _) (fun f hf => hs f (by simp [hf])) h2
    exact ⟨Δ, by rw [runAll_next hr, h3], by simpa using h4, by rw [h5, keys_update]⟩

/-- What is sent for all fields. -/
def message (tag : Nat → List UInt8) (bs : Field → List UInt8) (fs : Fields) : List UInt8 :=
  if fs.kind = .unit then [] else fs.fields.flatMap (chunk tag bs) ++ tag 0

/-- The variables of a method with one parameter. -/
theorem encVars_start (t : Text) (g : Text → Val) (w : List UInt8) :
    EncVars [(n "w", .bytes w), (n "v", .obj t g)] t g w :=
  ⟨by rw [lookup_cons, if_neg (by decide), lookup_cons, if_neg (by decide)]; rfl, by rw [lookup_cons, if_neg (by decide), lookup_cons, if_pos rfl], by rw [lookup_cons, if_pos rfl]⟩

theorem evalList_one {ρ : Runtime} {Γ : Env} {e : Expr} {v : Val} (h : Is ρ Γ e v) : evalList ρ Γ [e] = some [v] := by
  have := h.valueOf
  rw [valueOf] at this
  simp [evalList, this]

theorem evalList_two {ρ : Runtime} {Γ : Env} {a b : Expr} {u v : Val} (h1 : Is ρ Γ a u) (h2 : Is ρ Γ b v) :
    evalList ρ Γ [a, b] = some [u, v] := by
  have h1 := h1.valueOf
  have h2 := h2.valueOf
  rw [valueOf] at h1 h2
  simp [evalList, h1, h2]

theorem runAll_return {ρ : Runtime} {k : Nat} {Γ : Env} {es : List Expr} {vs : List Val} {ss : List Stmt} (h : evalList ρ Γ es = some vs) :
    runAll ρ k Γ (.ret es :: ss) = some (.ret vs Γ) := by
  simp [runAll, run, h]

theorem enc_body {ρ : Runtime} {Leaf : Prim → Val → Prop} {tag : Nat → List UInt8} (hf : Faithful ρ Leaf tag) (ho : FieldOptions ρ tag)
    {k : Nat} {t : Text} {g : Text → Val} {bs : Field → List UInt8} {fs : Fields} {ss : List Stmt} {Γ : Env} {w : List UInt8}
    (hΓ : EncVars Γ t g w) (hs : ∀ f ∈ fs.fields, Sent ρ g bs f) (h : encFieldsTree fs = some ss) :
    ∃ Δ, runAll ρ k Γ ss = some (.next Δ) ∧ EncVars Δ t g (w ++ message tag bs fs) ∧ keys Δ = keys Γ := by
  rw [encFieldsTree] at h
  by_cases hk : fs.kind = .unit
  · rw [if_pos hk, Option.some.injEq] at h; subst h
    exact ⟨Γ, runAll_nil _ _ _, by simpa [message, hk] using hΓ, rfl⟩
  · rw [if_neg hk] at h
    simp only [Option.bind_eq_bind, Option.bind_eq_some_iff, Option.pure_def, Option.some.injEq] at h
    obtain ⟨body, hb, rfl⟩ := h
    obtain ⟨Δ, h1, h2, h3⟩ := enc_fields hf ho (k := k) hΓ hs hb
    have hr : run ρ k Δ (.assign (var "w") (.call (buf (n "EncodeU32")) [var "w", buf (n "EndMarker")])) =
        some (.next (update Δ (n "w") (.bytes (w ++ fs.fields.flatMap (chunk tag bs) ++ tag 0)))) := by
      refine run_assign (Is.value ?_) (store_var h2.w)
      refine (value_call (eval_buf h2.buf _) (evalArgs_val (.var h2.w) (evalArgs_val (.const h2.buf hf.marker) (evalArgs_nil _ _)))).trans ?_
      exact hf.encodeMarker _
    refine ⟨_, by rw [runAll_append h1, runAll_next hr, runAll_nil], ?_, by rw [keys_update, h3]⟩
    have := h2.set (w ++ fs.fields.flatMap (chunk tag bs) ++ tag 0)
    simpa only [message, if_neg hk, List.append_assoc] using this

/-- The result of an encoding method. -/
theorem enc_invoke {ρ : Runtime} {Leaf : Prim → Val → Prop} {tag : Nat → List UInt8} (hf : Faithful ρ Leaf tag) (ho : FieldOptions ρ tag)
    {k : Nat} {t : Text} {g : Text → Val} {bs : Field → List UInt8} {fs : Fields} {ss : List Stmt} {w : List UInt8} {ret : String}
    (hs : ∀ f ∈ fs.fields, Sent ρ g bs f) (h : encFieldsTree fs = some ss) {u : Val}
    (hr : ∀ Γ, EncVars Γ t g (w ++ message tag bs fs) → keys Γ = [n "w", n "v"] → Is ρ Γ (var ret) u) :
    invoke ρ k [(n "w", byteSlice)] (ss ++ [.ret [var ret]]) (.obj t g) [.bytes w] = some ([u], .obj t g) := by
  obtain ⟨Δ, h1, h2, h3⟩ := enc_body hf ho (k := k) (encVars_start t g w) hs h
  have hd : define [(n "v", .obj t g)] [n "w"] [.bytes w] = some [(n "w", .bytes w), (n "v", .obj t g)] := rfl
  have hb : runAll ρ k [(n "w", .bytes w), (n "v", .obj t g)] (ss ++ [.ret [var ret]]) = some (.ret [u] Δ) := by
    rw [runAll_append h1]
    exact runAll_return (evalList_one (hr Δ h2 h3))
  show (define [(n "v", .obj t g)] [n "w"] [.bytes w]).bind _ = _
  rw [hd, Option.bind_some, hb]
  have hl : lookup (leave 1 Δ) (n "v") = some (.obj t g) := by
    rw [lookup_leave (x := n "v") (K := [n "w"]) h3 (by decide)]; exact h2.v
  show (lookup (leave 1 Δ) (n "v")).map _ = _
  rw [hl]; rfl

/-! ### Sizes -/

/-- The variables of a method for sizes. -/
structure SizeVars (Γ : Env) (t : Text) (g : Text → Val) (s : Nat) : Prop where
  buf : lookup Γ (n "buf") = none
  v : lookup Γ (n "v") = some (.obj t g)
  s : lookup Γ (n "size") = some (.num s)

theorem SizeVars.set {Γ : Env} {t : Text} {g : Text → Val} {s : Nat} (h : SizeVars Γ t g s) (s' : Nat) :
    SizeVars (update Γ (n "size") (.num s')) t g s' :=
  ⟨by rw [lookup_update_ne (by decide)]; exact h.buf, by rw [lookup_update_ne (by decide)]; exact h.v, lookup_update_self h.s _⟩

theorem run_add {ρ : Runtime} {k : Nat} {Γ : Env} {x : Text} {e : Expr} {a b : Nat} (h1 : lookup Γ x = some (.num a))
    (h : Is ρ Γ e (.num b)) : run ρ k Γ (.addAssign (.id x) e) = some (.next (update Γ x (.num (a + b : Nat)))) := by
  rw [run, (Is.var h1).bind, h.bind]
  simp [plus, store_var h1]

theorem size_field {ρ : Runtime} {Leaf : Prim → Val → Prop} {tag : Nat → List UInt8} (hf : Faithful ρ Leaf tag) (ho : FieldOptions ρ tag)
    {k : Nat} {Γ : Env} {t : Text} {g : Text → Val} {z : Nat} (hΓ : SizeVars Γ t g z) {bs : Field → List UInt8} {f : Field}
    (hs : Sent ρ g bs f) {s : Stmt} (he : sizeFieldTree f = some s) :
    run ρ k Γ s = some (.next (update Γ (n "size") (.num (z + (chunk tag bs f).length : Nat)))) := by
  cases hopt : isOption f.ty with
  | false =>
    rw [sizeField_plain hopt, Option.map_eq_some_iff] at he
    obtain ⟨x, hx, rfl⟩ := he
    have hcl : closure ρ Γ [] (returns x) [] = some [.num (bs f).length] := by
      have hd : define Γ [] [] = some Γ := rfl
      have hv := (hs.coded hopt).size Γ _ x hx hΓ.buf (Is.field hΓ.v)
      simp only [closure, List.map_nil, hd, Option.bind_some, runAll_ret hv, Out.result]
    refine run_add hΓ.s (Is.value ?_)
    refine (value_call (eval_buf hΓ.buf _) (evalArgs_val (.nat _ _ _) (evalArgs_fn (evalArgs_nil _ _)))).trans ?_
    have := hf.sizeField f.id.toNat _ _ hcl
    rw [chunk, hopt]
    rw [show (if false = true then [] else tag f.id.toNat ++ bs f) = tag f.id.toNat ++ bs f from rfl, List.length_append]
    exact this
  | true =>
    have hn := hs.nil hopt
    obtain ⟨c, x, ty, i⟩ := f
    cases ty <;> try (cases hopt; done)
    simp only [sizeFieldTree, Option.bind_eq_bind, Option.bind_eq_some_iff, Option.pure_def, Option.some.injEq] at he
    obtain ⟨g', _, y, hy, rfl⟩ := he
    refine run_add hΓ.s (Is.value ?_)
    refine (value_call (eval_inst hΓ.buf _ _) (evalArgs_val (.nat _ _ _)
      (evalArgs_val (Is.addr (Is.field hΓ.v)) (evalArgs_fn (evalArgs_nil _ _))))).trans ?_
    rw [hn, ho.sizeNone]
    simp [chunk, isOption]

theorem size_fields {ρ : Runtime} {Leaf : Prim → Val → Prop} {tag : Nat → List UInt8} (hf : Faithful ρ Leaf tag) (ho : FieldOptions ρ tag)
    {k : Nat} {t : Text} {g : Text → Val} {bs : Field → List UInt8} : ∀ {fs : List Field} {ss : List Stmt} {Γ : Env}
    {z : Nat}, SizeVars Γ t g z → (∀ f ∈ fs, Sent ρ g bs f) → allOf sizeFieldTree fs = some ss →
    ∃ Δ, runAll ρ k Γ ss = some (.next Δ) ∧ SizeVars Δ t g (z + (fs.flatMap (chunk tag bs)).length) ∧ keys Δ = keys Γ := by
  intro fs
  induction fs with
  | nil =>
    intro ss Γ w hΓ _ h
    simp only [allOf, Option.some.injEq] at h; subst h
    exact ⟨Γ, runAll_nil _ _ _, by simpa using hΓ, rfl⟩
  | cons f fs ih =>
    intro ss Γ w hΓ hs h
    simp only [allOf, Option.bind_eq_bind, Option.bind_eq_some_iff, Option.pure_def, Option.some.injEq] at h
    obtain ⟨s, h1, ss', h2, rfl⟩ := h
    have hr := size_field hf ho (k := k) hΓ (hs f (by simp)) h1
    obtain ⟨Δ, h3, h4, h5⟩ := ih (hΓ.set _) (fun f hf => hs f (by simp [hf])) h2
    refine ⟨Δ, by rw [runAll_next hr, h3], ?_, by rw [h5, keys_update]⟩
    rw [List.flatMap_cons, List.length_append, ← Nat.add_assoc]; exact h4

/-- The result of a method for sizes. -/
theorem size_invoke {ρ : Runtime} {Leaf : Prim → Val → Prop} {tag : Nat → List UInt8} (hf : Faithful ρ Leaf tag) (ho : FieldOptions ρ tag)
    {k : Nat} {t : Text} {g : Text → Val} {bs : Field → List UInt8} {fs : Fields} {ss : List Stmt}
    (hs : ∀ f ∈ fs.fields, Sent ρ g bs f) (h : sizeFieldsTree fs = some ss) :
    invoke ρ k [] (.define [n "size"] (.nat 0) :: ss ++ [.ret [var "size"]]) (.obj t g) [] =
      some ([.num (message tag bs fs).length], .obj t g) := by
  have h0 : run ρ k [(n "v", .obj t g)] (.define [n "size"] (.nat 0)) = some (.next [(n "size", .num (0 : Nat)), (n "v", .obj t g)]) :=
    run_define (Is.valueOf (.nat _ _ _)) rfl
  have hΓ : SizeVars [(n "size", .num (0 : Nat)), (n "v", .obj t g)] t g 0 :=
    ⟨by rw [lookup_cons, if_neg (by decide), lookup_cons, if_neg (by decide)]; rfl,
      by rw [lookup_cons, if_neg (by decide), lookup_cons, if_pos rfl], by rw [lookup_cons, if_pos rfl]⟩
  have key : ∃ Δ, runAll ρ k [(n "size", .num (0 : Nat)), (n "v", .obj t g)] ss = some (.next Δ) ∧
      SizeVars Δ t g (message tag bs fs).length ∧ keys Δ = [n "size", n "v"] := by
    rw [sizeFieldsTree] at h
    by_cases hk : fs.kind = .unit
    · rw [if_pos hk, Option.some.injEq] at h; subst h
      exact ⟨_, runAll_nil _ _ _, by simpa [message, hk] using hΓ, rfl⟩
    · rw [if_neg hk] at h
      simp only [Option.bind_eq_bind, Option.bind_eq_some_iff, Option.pure_def, Option.some.injEq] at h
      obtain ⟨body, hb, rfl⟩ := h
      obtain ⟨Δ, h1, h2, h3⟩ := size_fields hf ho (k := k) hΓ hs hb
      have hr : run ρ k Δ (.addAssign (var "size") (buf (n "EndMarkerSize"))) = _ :=
        run_add h2.s (.const h2.buf hf.markerSize)
      refine ⟨_, by rw [runAll_append h1, runAll_next hr, runAll_nil], ?_, by rw [keys_update, h3]; rfl⟩
      rw [message, if_neg hk, List.length_append]
      have := h2.set ((fs.fields.flatMap (chunk tag bs)).length + (tag 0).length)
      rwa [Nat.zero_add]
  obtain ⟨Δ, h1, h2, h3⟩ := key
  have hb : runAll ρ k [(n "v", .obj t g)] (.define [n "size"] (.nat 0) :: ss ++ [.ret [var "size"]]) =
      some (.ret [.num (message tag bs fs).length] Δ) := by
    rw [List.cons_append, runAll_next h0, runAll_append h1]
    exact runAll_return (evalList_one (.var h2.s))
  show (match runAll ρ k [(n "v", .obj t g)] (.define [n "size"] (.nat 0) :: ss ++ [.ret [var "size"]]) with
    | some (.ret vs Δ) => (lookup (leave 1 Δ) (n "v")).map (vs, ·)
    | _ => none) = _
  rw [hb]
  have hl : lookup (leave 1 Δ) (n "v") = some (.obj t g) := by
    rw [lookup_leave (x := n "v") (K := [n "size"]) h3 (by decide)]; exact h2.v
  simp only [hl, Option.map_some]

end Mabo.Go
