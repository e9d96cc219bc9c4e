import Verif.Go.RunFields
/-! The emitted decoding methods. -/
namespace Mabo.Go
open Mabo.Simplify Mabo.Spec.GoRun
open Mabo.Schema (Prim FieldKind)
open Mabo.Parse (Text printNat)

theorem found_ne (f : Field) {x : String} (h : (n x).take 2 ≠ ['f', 'o']) : foundName f ≠ n x := by
  intro e
  refine h ?_
  rw [← e]; rfl

theorem found_inj {f g : Field} (h : foundName f = foundName g) : fieldName f = fieldName g := List.append_cancel_left h

/-- What is done for a field that is found. -/
def caseBody (f : Field) (x : Expr) : List Stmt :=
  [.define [n "r2", n "value", n "err"] x,
    .ifThen (.ne (var "err") (var "nil")) [.ret [var "nil", var "err"]],
    .assign (var "r") (var "r2"),
    .assign (.sel (var "v") (fieldName f)) (var "value"),
    .assign (.id (foundName f)) (var "true")]

theorem decField_eq {f : Field} {s : Stmt} (h : decFieldTree f = some s) :
    ∃ x, decTree f.ty = some x ∧ s = .case (.nat f.id.toNat) (caseBody f x) := by
  simp only [decFieldTree, Option.bind_eq_bind, Option.bind_eq_some_iff, Option.pure_def, Option.some.injEq] at h
  obtain ⟨x, h1, rfl⟩ := h
  exact ⟨x, h1, rfl⟩

theorem same_num (a b : Nat) : same (.num a) (.num b) = some (a == b) := by
  have : ((a : Int) == (b : Int)) = (a == b) := by
    rw [Bool.eq_iff_iff, beq_iff_eq, beq_iff_eq]; omega
  simp only [same, this]

theorem runCases_case {ρ : Runtime} {k : Nat} {Γ : Env} {i j : Nat} {body cs : List Stmt} :
    runCases ρ k Γ (.num i) (.case (.nat j) body :: cs) =
      if i = j then (runAll ρ k Γ body).map (Out.leave Γ.length) else runCases ρ k Γ (.num i) cs := by
  rw [runCases, (Is.nat ρ Γ j).bind, Option.bind_some, same_num, Option.bind_some]
  by_cases h : i = j <;> simp [h]

theorem cases_miss {ρ : Runtime} {k i : Nat} {tl : List Stmt} (Γ : Env) : ∀ {fs : List Field} {cs : List Stmt},
    allOf decFieldTree fs = some cs → (∀ f ∈ fs, f.id.toNat ≠ i) →
    runCases ρ k Γ (.num i) (cs ++ tl) = runCases ρ k Γ (.num i) tl := by
  intro fs
  induction fs with
  | nil => intro cs h _; simp only [allOf, Option.some.injEq] at h; subst h; rfl
  | cons f fs ih =>
    intro cs h hi
    simp only [allOf, Option.bind_eq_bind, Option.bind_eq_some_iff, Option.pure_def, Option.some.injEq] at h
    obtain ⟨s, h1, ss', h2, rfl⟩ := h
    obtain ⟨x, hx, rfl⟩ := decField_eq h1
    rw [List.cons_append, runCases_case, if_neg fun e => hi f (by simp) e.symm]
    exact ih h2 fun f hf => hi f (by simp [hf])

theorem cases_hit {ρ : Runtime} {k : Nat} {tl : List Stmt} {f : Field} : ∀ {fs : List Field} {cs : List Stmt},
    allOf decFieldTree fs = some cs → f ∈ fs → (fs.map fun f => f.id.toNat).Nodup →
    ∃ x, decTree f.ty = some x ∧ ∀ Γ, runCases ρ k Γ (.num f.id.toNat) (cs ++ tl) =
      (runAll ρ k Γ (caseBody f x)).map (Out.leave Γ.length) := by
  intro fs
  induction fs with
  | nil => intro cs _ hf; cases hf
  | cons g fs ih =>
    intro cs h hf hn
    simp only [allOf, Option.bind_eq_bind, Option.bind_eq_some_iff, Option.pure_def, Option.some.injEq] at h
    obtain ⟨s, h1, ss', h2, rfl⟩ := h
    obtain ⟨x, hx, rfl⟩ := decField_eq h1
    rw [List.map_cons, List.nodup_cons] at hn
    rcases List.mem_cons.1 hf with rfl | hf
    · exact ⟨x, hx, fun Γ => by rw [List.cons_append, runCases_case, if_pos rfl]⟩
    · obtain ⟨y, hy, he⟩ := ih h2 hf hn.2
      refine ⟨y, hy, fun Γ => ?_⟩
      rw [List.cons_append, runCases_case, if_neg, he]
      intro e
      exact hn.1 (e ▸ List.mem_map_of_mem (f := fun f : Field => f.id.toNat) hf)

/-- The clause for the end of the fields. -/
def endCase : List Stmt := [.case (buf (n "EndMarker")) [.brk]]

theorem cases_end {ρ : Runtime} {k : Nat} {Γ : Env} (hb : lookup Γ (n "buf") = none) (hm : ρ.const (n "EndMarker") = some (.num 0)) :
    runCases ρ k Γ (.num 0) endCase = some (.brk Γ) := by
  rw [endCase, runCases, (Is.const hb hm).bind]
  have : same (.num 0) (.num 0) = some true := rfl
  simp [this, runAll, run, Out.leave, leave_self]

/-- The variables of a decoding method. -/
structure DecVars (Γ : Env) (fs : List Field) (t : Text) (g : Text → Val) (r : List UInt8) (found : Field → Bool) : Prop where
  names : ∀ x ∈ keys Γ, x = n "r" ∨ x = n "v" ∨ ∃ f, x = foundName f
  r : lookup Γ (n "r") = some (.bytes r)
  v : lookup Γ (n "v") = some (.obj t g)
  found : ∀ f ∈ fs, lookup Γ (foundName f) = some (.bool (found f))

theorem DecVars.none {Γ : Env} {fs : List Field} {t : Text} {g : Text → Val} {r : List UInt8} {found : Field → Bool}
    (h : DecVars Γ fs t g r found) {x : String} (hx : (n x).take 2 ≠ ['f', 'o']) (hr : n x ≠ n "r") (hv : n x ≠ n "v") :
    lookup Γ (n x) = none := by
  rw [lookup_none]
  intro hm
  rcases h.names _ hm with h | h | ⟨f, h⟩
  · exact hr h
  · exact hv h
  · exact found_ne f hx h.symm

/-- The variables behind the beginning of a round. -/
theorem round_id {ρ : Runtime} {k : Nat} {Γ : Env}
    {fs : List Field} {t : Text} {g : Text → Val} {r rest : List UInt8} {found : Field → Bool} {i : Nat}
    (hd : lib ρ (n "DecodeID") [] [] [.bytes r] = some [.bytes rest, .num i, .nil]) (h : DecVars Γ fs t g r found) (ss : List Stmt) :
    runAll ρ k Γ (.define [n "r2", n "id", n "err"] (.call (buf (n "DecodeID")) [var "r"]) ::
      .ifThen (.ne (var "err") (var "nil")) [.ret [var "nil", var "err"]] ::
      .assign (var "r") (var "r2") :: .blank :: ss) =
    runAll ρ k ((n "r2", .bytes rest) :: (n "id", .num i) :: (n "err", .nil) :: update Γ (n "r") (.bytes rest)) ss := by
  have hbuf := h.none (x := "buf") (by decide) (by decide) (by decide)
  have hnil := h.none (x := "nil") (by decide) (by decide) (by decide)
  have h1 : run ρ k Γ (.define [n "r2", n "id", n "err"] (.call (buf (n "DecodeID")) [var "r"])) =
      some (.next ((n "r2", .bytes rest) :: (n "id", .num i) :: (n "err", .nil) :: Γ)) := by
    refine run_define (vs := [.bytes rest, .num i, .nil]) ?_ rfl
    exact (value_call (eval_buf hbuf _) (evalArgs_val (.var h.r) (evalArgs_nil _ _))).trans hd
  have hnil' : lookup ((n "r2", .bytes rest) :: (n "id", .num i) :: (n "err", .nil) :: Γ) (n "nil") = none := by
    rw [lookup_cons, if_neg (by decide), lookup_cons, if_neg (by decide), lookup_cons, if_neg (by decide), hnil]
  have herr : lookup ((n "r2", .bytes rest) :: (n "id", .num i) :: (n "err", .nil) :: Γ) (n "err") = some .nil := by
    rw [lookup_cons, if_neg (by decide), lookup_cons, if_neg (by decide), lookup_cons, if_pos rfl]
  have h2 : run ρ k ((n "r2", .bytes rest) :: (n "id", .num i) :: (n "err", .nil) :: Γ)
      (.ifThen (.ne (var "err") (var "nil")) [.ret [var "nil", var "err"]]) = some (.next _) :=
    run_if_false (Is.ne (c := true) (.var herr) (.nil hnil') rfl)
  have h3 : run ρ k ((n "r2", .bytes rest) :: (n "id", .num i) :: (n "err", .nil) :: Γ) (.assign (var "r") (var "r2")) =
      some (.next ((n "r2", .bytes rest) :: (n "id", .num i) :: (n "err", .nil) :: update Γ (n "r") (.bytes rest))) := by
    refine run_assign (v := .bytes rest) (.var (by rw [lookup_cons, if_pos rfl])) ?_
    refine (store_var (u := .bytes r) ?_).trans ?_
    · rw [lookup_cons, if_neg (by decide), lookup_cons, if_neg (by decide), lookup_cons, if_neg (by decide), h.r]
    · rw [update_cons, if_neg (by decide), update_cons, if_neg (by decide), update_cons, if_neg (by decide)]
  rw [runAll_next h1, runAll_next h2, runAll_next h3, runAll_next (run_blank _ _ _)]

theorem round_start {ρ : Runtime} {Leaf : Prim → Val → Prop} {tag : Nat → List UInt8} (hf : Faithful ρ Leaf tag) {k : Nat} {Γ : Env}
    {fs : List Field} {t : Text} {g : Text → Val} {rest : List UInt8} {found : Field → Bool} {i : Nat}
    (h : DecVars Γ fs t g (tag i ++ rest) found) (ss : List Stmt) :
    runAll ρ k Γ (.define [n "r2", n "id", n "err"] (.call (buf (n "DecodeID")) [var "r"]) ::
      .ifThen (.ne (var "err") (var "nil")) [.ret [var "nil", var "err"]] ::
      .assign (var "r") (var "r2") :: .blank :: ss) =
    runAll ρ k ((n "r2", .bytes rest) :: (n "id", .num i) :: (n "err", .nil) :: update Γ (n "r") (.bytes rest)) ss :=
  round_id (hf.decodeId i rest) h ss

/-- The body of the loop. -/
def roundBody (cs : List Stmt) : List Stmt :=
  [.define [n "r2", n "id", n "err"] (.call (buf (n "DecodeID")) [var "r"]),
    .ifThen (.ne (var "err") (var "nil")) [.ret [var "nil", var "err"]],
    .assign (var "r") (var "r2"), .blank,
    .switch (var "id") (cs ++ endCase)]

theorem decLoop_eq (cs : List Stmt) : decLoopTree cs = .loop (.gt (.call (var "len") [var "r"]) (.nat 0)) (roundBody cs) := rfl

theorem run_switch {ρ : Runtime} {k : Nat} {Γ : Env} {e : Expr} {v : Val} {cs : List Stmt} (h : Is ρ Γ e v) :
    run ρ k Γ (.switch e cs) = (runCases ρ k Γ v cs).map Out.caught := by
  rw [run, h.bind]; rfl

theorem runAll_last {ρ : Runtime} {k : Nat} {Γ : Env} {s : Stmt} : runAll ρ k Γ [s] = run ρ k Γ s := by
  simp only [runAll]
  cases run ρ k Γ s with
  | none => rfl
  | some o => cases o <;> rfl

/-- A round with the end marker. -/
theorem round_end {ρ : Runtime} {Leaf : Prim → Val → Prop} {tag : Nat → List UInt8} (hf : Faithful ρ Leaf tag) {k : Nat} {Γ : Env}
    {fs : List Field} {t : Text} {g : Text → Val} {rest : List UInt8} {found : Field → Bool}
    (h : DecVars Γ fs t g (tag 0 ++ rest) found) {cs : List Stmt} (hc : allOf decFieldTree fs = some cs)
    (h0 : ∀ f ∈ fs, f.id.toNat ≠ 0) :
    (runAll ρ k Γ (roundBody cs)).map (Out.leave Γ.length) = some (.next (update Γ (n "r") (.bytes rest))) := by
  have hbuf := h.none (x := "buf") (by decide) (by decide) (by decide)
  rw [roundBody, round_start hf h, runAll_last, run_switch (e := var "id") (v := .num (0 : Nat)) (.var (by
    rw [lookup_cons, if_neg (by decide), lookup_cons, if_pos rfl])), cases_miss _ hc h0]
  have := cases_end (ρ := ρ) (k := k)
    (Γ := (n "r2", .bytes rest) :: (n "id", .num (0 : Nat)) :: (n "err", .nil) :: update Γ (n "r") (.bytes rest)) (by
      rw [lookup_cons, if_neg (by decide), lookup_cons, if_neg (by decide), lookup_cons, if_neg (by decide),
        lookup_update_ne (by decide), hbuf]) hf.marker
  rw [show (Val.num ((0 : Nat) : Int)) = .num 0 from rfl] at *
  rw [this]
  simp only [Option.map_some, Out.caught, Out.leave, leave_three _ _ _ _ _ (update_length Γ _ _)]

theorem DecVars.set {Γ : Env} {fs : List Field} {t : Text} {g : Text → Val} {r : List UInt8} {found : Field → Bool}
    (h : DecVars Γ fs t g r found) (r' : List UInt8) : DecVars (update Γ (n "r") (.bytes r')) fs t g r' found :=
  ⟨by rw [keys_update]; exact h.names, lookup_update_self h.r _, by rw [lookup_update_ne (by decide)]; exact h.v,
    fun f hf => by rw [lookup_update_ne (found_ne f (by decide))]; exact h.found f hf⟩

/-- A round with a field. -/
theorem round_field {ρ : Runtime} {Leaf : Prim → Val → Prop} {tag : Nat → List UInt8} (hf : Faithful ρ Leaf tag) {k : Nat} {Γ : Env}
    {fs : List Field} {t : Text} {g : Text → Val} {bs rest : List UInt8} {found : Field → Bool} {f : Field} {u v : Val}
    (h : DecVars Γ fs t g (tag f.id.toNat ++ (bs ++ rest)) found) {cs : List Stmt} (hc : allOf decFieldTree fs = some cs)
    (hm : f ∈ fs) (hid : (fs.map fun f => f.id.toNat).Nodup) (hn : (fs.map fieldName).Nodup)
    (hd : TyCoded ρ (encTree · f.ty) (sizeTree · f.ty) (decTree f.ty) v u bs) :
    ∃ Δ, (runAll ρ k Γ (roundBody cs)).map (Out.leave Γ.length) = some (.next Δ) ∧ keys Δ = keys Γ ∧
      DecVars Δ fs t (fun y => if y = fieldName f then u else g y) rest (fun f' => found f' || fieldName f' == fieldName f) := by
  have hbuf := h.none (x := "buf") (by decide) (by decide) (by decide)
  have hnil := h.none (x := "nil") (by decide) (by decide) (by decide)
  have htrue := h.none (x := "true") (by decide) (by decide) (by decide)
  obtain ⟨x, hx, hrun⟩ := cases_hit (ρ := ρ) (k := k) (tl := endCase) hc hm hid
  rw [roundBody, round_start hf h, runAll_last, run_switch (e := var "id") (v := .num f.id.toNat) (.var (by
    rw [lookup_cons, if_neg (by decide), lookup_cons, if_pos rfl])), hrun]
  -- the variables at the beginning of the clause
  have hΓ1 := h.set (bs ++ rest)
  have hl1 := update_length Γ (n "r") (.bytes (bs ++ rest))
  have hk1 := keys_update Γ (n "r") (.bytes (bs ++ rest))
  revert hl1 hk1 hΓ1
  generalize update Γ (n "r") (.bytes (bs ++ rest)) = Γ1
  intro hΓ1 hl1 hk1
  generalize hE : (n "r2", Val.bytes (bs ++ rest)) :: (n "id", .num f.id.toNat) :: (n "err", .nil) :: Γ1 = E
  have hEl : ∀ y, y ≠ n "r2" → y ≠ n "id" → y ≠ n "err" → lookup E y = lookup Γ1 y := by
    intro y h1 h2 h3
    rw [← hE, lookup_cons, if_neg h1, lookup_cons, if_neg h2, lookup_cons, if_neg h3]
  have hEu : ∀ y u, y ≠ n "r2" → y ≠ n "id" → y ≠ n "err" → ∀ Γ1',
      update ((n "r2", Val.bytes (bs ++ rest)) :: (n "id", .num f.id.toNat) :: (n "err", .nil) :: Γ1') y u =
        (n "r2", Val.bytes (bs ++ rest)) :: (n "id", .num f.id.toNat) :: (n "err", .nil) :: update Γ1' y u := by
    intro y u h1 h2 h3 Γ1'
    rw [update_cons, if_neg h1, update_cons, if_neg h2, update_cons, if_neg h3]
  -- the clause
  have s1 : run ρ k E (.define [n "r2", n "value", n "err"] x) =
      some (.next ((n "r2", .bytes rest) :: (n "value", u) :: (n "err", .nil) :: E)) := by
    refine run_define (hd.dec E x rest hx ?_ ?_) rfl
    · rw [hEl _ (by decide) (by decide) (by decide)]; exact hΓ1.none (by decide) (by decide) (by decide)
    · rw [hEl _ (by decide) (by decide) (by decide)]; exact hΓ1.r
  have hFl : ∀ E' y, y ≠ n "r2" → y ≠ n "value" → y ≠ n "err" →
      lookup ((n "r2", .bytes rest) :: (n "value", u) :: (n "err", .nil) :: E') y = lookup E' y := by
    intro E' y h1 h2 h3
    rw [lookup_cons, if_neg h1, lookup_cons, if_neg h2, lookup_cons, if_neg h3]
  have hFu : ∀ E' y u', y ≠ n "r2" → y ≠ n "value" → y ≠ n "err" →
      update ((n "r2", .bytes rest) :: (n "value", u) :: (n "err", .nil) :: E') y u' =
        (n "r2", .bytes rest) :: (n "value", u) :: (n "err", .nil) :: update E' y u' := by
    intro E' y u' h1 h2 h3
    rw [update_cons, if_neg h1, update_cons, if_neg h2, update_cons, if_neg h3]
  have s2 : run ρ k ((n "r2", .bytes rest) :: (n "value", u) :: (n "err", .nil) :: E)
      (.ifThen (.ne (var "err") (var "nil")) [.ret [var "nil", var "err"]]) = some (.next _) :=
    run_if_false (Is.ne (c := true) (.var (v := .nil) (by
      rw [lookup_cons, if_neg (by decide), lookup_cons, if_neg (by decide), lookup_cons, if_pos rfl]))
      (.nil (by rw [hFl _ _ (by decide) (by decide) (by decide), hEl _ (by decide) (by decide) (by decide)]
                exact hΓ1.none (by decide) (by decide) (by decide))) rfl)
  have hr1 : lookup E (n "r") = some (.bytes (bs ++ rest)) := by
    rw [hEl _ (by decide) (by decide) (by decide)]; exact hΓ1.r
  have s3 : run ρ k ((n "r2", .bytes rest) :: (n "value", u) :: (n "err", .nil) :: E) (.assign (var "r") (var "r2")) =
      some (.next ((n "r2", .bytes rest) :: (n "value", u) :: (n "err", .nil) :: update E (n "r") (.bytes rest))) := by
    refine run_assign (v := .bytes rest) (.var (by rw [lookup_cons, if_pos rfl])) ?_
    refine (store_var (u := .bytes (bs ++ rest)) ?_).trans ?_
    · rw [hFl _ _ (by decide) (by decide) (by decide), hr1]
    · rw [hFu _ _ _ (by decide) (by decide) (by decide)]
  have hv2 : lookup (update E (n "r") (.bytes rest)) (n "v") = some (.obj t g) := by
    rw [lookup_update_ne (by decide), hEl _ (by decide) (by decide) (by decide)]; exact hΓ1.v
  have s4 : run ρ k ((n "r2", .bytes rest) :: (n "value", u) :: (n "err", .nil) :: update E (n "r") (.bytes rest))
      (.assign (.sel (var "v") (fieldName f)) (var "value")) =
      some (.next ((n "r2", .bytes rest) :: (n "value", u) :: (n "err", .nil) ::
        update (update E (n "r") (.bytes rest)) (n "v") (.obj t fun y => if y = fieldName f then u else g y))) := by
    refine run_assign (v := u) (.var (by rw [lookup_cons, if_neg (by decide), lookup_cons, if_pos rfl])) ?_
    refine (store_field (t := t) (g := g) ?_).trans ?_
    · rw [hFl _ _ (by decide) (by decide) (by decide), hv2]
    · rw [hFu _ _ _ (by decide) (by decide) (by decide)]
  have hf3 : lookup (update (update E (n "r") (.bytes rest)) (n "v") (.obj t fun y => if y = fieldName f then u else g y)) (foundName f) =
      some (.bool (found f)) := by
    rw [lookup_update_ne (found_ne f (by decide)), lookup_update_ne (found_ne f (by decide)),
      hEl _ (found_ne f (by decide)) (found_ne f (by decide)) (found_ne f (by decide))]
    exact hΓ1.found f hm
  have s5 : run ρ k ((n "r2", .bytes rest) :: (n "value", u) :: (n "err", .nil) ::
        update (update E (n "r") (.bytes rest)) (n "v") (.obj t fun y => if y = fieldName f then u else g y))
      (.assign (.id (foundName f)) (var "true")) =
      some (.next ((n "r2", .bytes rest) :: (n "value", u) :: (n "err", .nil) ::
        update (update (update E (n "r") (.bytes rest)) (n "v") (.obj t fun y => if y = fieldName f then u else g y))
          (foundName f) (.bool true))) := by
    refine run_assign (v := .bool true) (.true ?_) ?_
    · rw [hFl _ _ (by decide) (by decide) (by decide), lookup_update_ne (by decide), lookup_update_ne (by decide),
        hEl _ (by decide) (by decide) (by decide)]
      exact hΓ1.none (by decide) (by decide) (by decide)
    · refine (store_var (u := .bool (found f)) ?_).trans ?_
      · rw [hFl _ _ (found_ne f (by decide)) (found_ne f (by decide)) (found_ne f (by decide)), hf3]
      · rw [hFu _ _ _ (found_ne f (by decide)) (found_ne f (by decide)) (found_ne f (by decide))]
  have hall : runAll ρ k E (caseBody f x) = some (.next ((n "r2", .bytes rest) :: (n "value", u) :: (n "err", .nil) ::
        update (update (update E (n "r") (.bytes rest)) (n "v") (.obj t fun y => if y = fieldName f then u else g y))
          (foundName f) (.bool true))) := by
    rw [caseBody, runAll_next s1, runAll_next s2, runAll_next s3, runAll_next s4, runAll_next s5, runAll_nil]
  rw [hall]
  refine ⟨update (update (update Γ1 (n "r") (.bytes rest)) (n "v") (.obj t fun y => if y = fieldName f then u else g y))
    (foundName f) (.bool true), ?_, ?_, ?_⟩
  · simp only [Option.map_some, Out.leave, Out.caught]
    rw [leave_three _ _ _ _ _ (by rw [update_length, update_length, update_length]), ← hE,
      hEu _ _ (by decide) (by decide) (by decide), hEu _ _ (by decide) (by decide) (by decide),
      hEu _ _ (found_ne f (by decide)) (found_ne f (by decide)) (found_ne f (by decide)),
      leave_three _ _ _ _ _ (by rw [update_length, update_length, update_length, hl1])]
  · rw [keys_update, keys_update, keys_update, hk1]
  · refine ⟨?_, ?_, ?_, ?_⟩
    · rw [keys_update, keys_update, keys_update]; exact hΓ1.names
    · rw [lookup_update_ne (found_ne f (by decide)).symm, lookup_update_ne (by decide)]
      exact lookup_update_self hΓ1.r _
    · rw [lookup_update_ne (found_ne f (by decide)).symm]
      exact lookup_update_self (v := .obj t g) (by rw [lookup_update_ne (by decide)]; exact hΓ1.v) _
    · intro f' hf'
      rw [lookup_update]
      by_cases he : foundName f' = foundName f
      · have hfn := found_inj he
        have hs : lookup (update (update Γ1 (n "r") (.bytes rest)) (n "v") (.obj t fun y => if y = fieldName f then u else g y))
            (foundName f) = some (.bool (found f)) := by
          rw [lookup_update_ne (found_ne f (by decide)), lookup_update_ne (found_ne f (by decide))]; exact hΓ1.found f hm
        rw [if_pos ⟨he, by rw [hs]; rfl⟩, hfn]
        simp
      · rw [if_neg fun hc => he hc.1, lookup_update_ne (found_ne f' (by decide)), lookup_update_ne (found_ne f' (by decide)),
          hΓ1.found f' hf']
        have : (fieldName f' == fieldName f) = false := by
          rw [beq_eq_false_iff_ne]
          intro e; exact he (by rw [foundName, foundName, e])
        rw [this, Bool.or_false]

end Mabo.Go
