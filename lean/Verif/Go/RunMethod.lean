import Verif.Go.RunDecode
/-! The result of emitted decoding methods. -/
namespace Mabo.Go
open Mabo.Simplify Mabo.Spec.GoRun
open Mabo.Schema (Prim FieldKind)
open Mabo.Parse (Text printNat)

/-- The condition of the loop. -/
def loopCond : Expr := .gt (.call (var "len") [var "r"]) (.nat 0)

theorem loop_cond {ρ : Runtime} {Γ : Env} {r : List UInt8} (hl : lookup Γ (n "len") = none) (hr : lookup Γ (n "r") = some (.bytes r)) :
    ((eval ρ Γ loopCond).bind (·.value ρ)).bind Val.isBool = some (decide (0 < r.length)) := by
  have h1 : eval ρ Γ (var "len") = some .len := by simp only [var, eval, name, hl]; rfl
  have h2 : Is ρ Γ (.call (var "len") [var "r"]) (.num r.length) := by
    refine ⟨.vals [.num r.length], ?_, rfl⟩
    have h : evalArgs ρ Γ [var "r"] = some [.val (.bytes r)] := evalArgs_val (.var hr) (evalArgs_nil _ _)
    rw [eval_call, h1, h]
    rfl
  have h3 : Is ρ Γ loopCond (.bool (decide ((0 : Int) < r.length))) := by
    refine ⟨.vals [.bool (decide ((0 : Int) < r.length))], ?_, rfl⟩
    rw [loopCond, eval, h2.bind, (Is.nat ρ Γ 0).bind]
    rfl
  rw [h3.bind]
  simp [Val.isBool]

/-- The loop of a decoding method. -/
def loopFrom (ρ : Runtime) (k : Nat) (cs : List Stmt) : Nat → Env → Option Out :=
  iterate (fun Δ => ((eval ρ Δ loopCond).bind (·.value ρ)).bind Val.isBool)
    (fun Δ => (runAll ρ k Δ (roundBody cs)).map (Out.leave Δ.length))

theorem run_loop (ρ : Runtime) (k : Nat) (cs : List Stmt) (Γ : Env) : run ρ k Γ (decLoopTree cs) = loopFrom ρ k cs k Γ := by
  rw [decLoop_eq, run]; rfl

theorem loop_done {ρ : Runtime} {k j : Nat} {cs : List Stmt} {Γ : Env} {fs : List Field} {t : Text} {g : Text → Val}
    {found : Field → Bool} (h : DecVars Γ fs t g [] found) : loopFrom ρ k cs (j + 1) Γ = some (.next Γ) := by
  rw [loopFrom, iterate, loop_cond (h.none (by decide) (by decide) (by decide)) h.r]; rfl

theorem loop_round {ρ : Runtime} {k j : Nat} {cs : List Stmt} {Γ Δ : Env} {fs : List Field} {t : Text} {g : Text → Val}
    {found : Field → Bool} {r : List UInt8} (h : DecVars Γ fs t g r found) (hr : r ≠ [])
    (hb : (runAll ρ k Γ (roundBody cs)).map (Out.leave Γ.length) = some (.next Δ)) :
    loopFrom ρ k cs (j + 1) Γ = loopFrom ρ k cs j Δ := by
  have : 0 < r.length := List.length_pos_iff.2 hr
  rw [loopFrom, iterate, loop_cond (h.none (by decide) (by decide) (by decide)) h.r]
  simp [this, hb]

/-- The loop reads all fields that were sent. -/
theorem loop_fields {ρ : Runtime} {Leaf : Prim → Val → Prop} {tag : Nat → List UInt8} (hf : Faithful ρ Leaf tag) {k : Nat}
    {fs : List Field} {t : Text} {gv : Text → Val} {bs : Field → List UInt8} {cs : List Stmt} (hc : allOf decFieldTree fs = some cs)
    (hid : (fs.map fun f => f.id.toNat).Nodup) (hn : (fs.map fieldName).Nodup) (h0 : ∀ f ∈ fs, f.id.toNat ≠ 0)
    (hs : ∀ f ∈ fs, Sent ρ gv bs f) : ∀ (todo : List Field) (j : Nat) (Γ : Env) (g : Text → Val) (found : Field → Bool),
    (∀ f ∈ todo, f ∈ fs) → DecVars Γ fs t g (todo.flatMap (chunk tag bs) ++ tag 0) found →
    ∃ Δ g' found', loopFrom ρ k cs (todo.length + 2 + j) Γ = some (.next Δ) ∧ keys Δ = keys Γ ∧ DecVars Δ fs t g' [] found' ∧
      (∀ f ∈ todo, isOption f.ty = false → g' (fieldName f) = gv (fieldName f) ∧ found' f = true) ∧
      (∀ y, (∀ f ∈ todo, isOption f.ty = false → fieldName f ≠ y) → g' y = g y) ∧
      (∀ f, (∀ f' ∈ todo, isOption f'.ty = false → fieldName f' ≠ fieldName f) → found' f = found f) := by
  intro todo
  induction todo with
  | nil =>
    intro j Γ g found _ h
    have h' : DecVars Γ fs t g (tag 0 ++ []) found := by simpa using h
    refine ⟨update Γ (n "r") (.bytes []), g, found, ?_, keys_update _ _ _, h.set [], ?_, fun y _ => rfl, fun f _ => rfl⟩
    · rw [show [].length + 2 + j = (j + 1) + 1 by simp; omega, loop_round h (by simpa using hf.tagged 0) (round_end hf h' hc h0),
        loop_done (h.set [])]
    · intro f hf; cases hf
  | cons f todo ih =>
    intro j Γ g found hsub h
    have hmem : f ∈ fs := hsub f (by simp)
    cases hopt : isOption f.ty with
    | true =>
      have hch : chunk tag bs f = [] := by simp [chunk, hopt]
      rw [List.flatMap_cons, hch, List.nil_append] at h
      obtain ⟨Δ, g', found', h1, h2, h3, h4, h5, h6⟩ := ih (j + 1) Γ g found (fun f hf => hsub f (by simp [hf])) h
      refine ⟨Δ, g', found', ?_, h2, h3, ?_, ?_, ?_⟩
      · rw [← h1]; congr 1; simp; omega
      · intro f' hf' ho
        rcases List.mem_cons.1 hf' with rfl | hf'
        · rw [hopt] at ho; cases ho
        · exact h4 f' hf' ho
      · intro y hy
        exact h5 y fun f' hf' => hy f' (by simp [hf'])
      · intro f0 hy
        exact h6 f0 fun f' hf' => hy f' (by simp [hf'])
    | false =>
      have hch : chunk tag bs f = tag f.id.toNat ++ bs f := by simp [chunk, hopt]
      rw [List.flatMap_cons, hch, List.append_assoc, List.append_assoc] at h
      obtain ⟨Δ, hb, hk, hD⟩ := round_field hf (k := k) h hc hmem hid hn ((hs f hmem).coded hopt)
      obtain ⟨Δ', g', found', h1, h2, h3, h4, h5, h6⟩ := ih j Δ _ _ (fun f hf => hsub f (by simp [hf])) hD
      refine ⟨Δ', g', found', ?_, by rw [h2, hk], h3, ?_, ?_, ?_⟩
      · rw [show (f :: todo).length + 2 + j = (todo.length + 2 + j) + 1 by simp; omega,
          loop_round h (by simp [hf.tagged]) hb, h1]
      · intro f' hf' ho
        by_cases hin : ∃ f0 ∈ todo, isOption f0.ty = false ∧ fieldName f0 = fieldName f'
        · obtain ⟨f0, hf0, ho0, he⟩ := hin
          obtain ⟨ha, hb⟩ := h4 f0 hf0 ho0
          refine ⟨by rw [← he, ha], ?_⟩
          have hff : f0 = f' := by
            have hi : f0 ∈ fs := hsub f0 (by simp [hf0])
            have hi' : f' ∈ fs := hsub f' hf'
            exact inj_of_nodup hn hi hi' he
          rw [← hff]; exact hb
        · rcases List.mem_cons.1 hf' with rfl | hf'
          · refine ⟨?_, ?_⟩
            · rw [h5 _ fun f0 hf0 ho0 he => hin ⟨f0, hf0, ho0, he⟩, if_pos rfl]
            · rw [h6 _ fun f0 hf0 ho0 he => hin ⟨f0, hf0, ho0, he⟩]; simp
          · exact absurd ⟨f', hf', ho, rfl⟩ hin
      · intro y hy
        rw [h5 y fun f' hf' => hy f' (by simp [hf']), if_neg fun e => hy f (by simp) hopt e.symm]
      · intro f0 hy
        rw [h6 f0 fun f' hf' => hy f' (by simp [hf'])]
        have : (fieldName f0 == fieldName f) = false := by
          rw [beq_eq_false_iff_ne]; exact fun e => hy f (by simp) hopt e.symm
        rw [this, Bool.or_false]
where
  inj_of_nodup {fs : List Field} (hn : (fs.map fieldName).Nodup) {a b : Field} (ha : a ∈ fs) (hb : b ∈ fs)
      (he : fieldName a = fieldName b) : a = b := by
    induction fs with
    | nil => cases ha
    | cons c fs ih =>
      rw [List.map_cons, List.nodup_cons] at hn
      rcases List.mem_cons.1 ha with rfl | ha' <;> rcases List.mem_cons.1 hb with rfl | hb'
      · rfl
      · exact absurd (he ▸ List.mem_map_of_mem (f := fieldName) hb') hn.1
      · exact absurd (he ▸ List.mem_map_of_mem (f := fieldName) ha') hn.1
      · exact ih hn.2 ha' hb'

/-! ### The rest of the method -/

theorem founds {ρ : Runtime} {k : Nat} : ∀ (fs : List Field) (Γ : Env), (∀ x ∈ keys Γ, x = n "r" ∨ x = n "v" ∨ ∃ f, x = foundName f) →
    ∃ Δ, runAll ρ k Γ (fs.map foundVarTree) = some (.next Δ) ∧ (∃ ext, Δ = ext ++ Γ) ∧
      (∀ x ∈ keys Δ, x = n "r" ∨ x = n "v" ∨ ∃ f, x = foundName f) ∧
      (∀ x, (∀ f, x ≠ foundName f) → lookup Δ x = lookup Γ x) ∧
      (∀ f, f ∈ fs ∨ lookup Γ (foundName f) = some (.bool false) → lookup Δ (foundName f) = some (.bool false)) := by
  intro fs
  induction fs with
  | nil =>
    intro Γ hΓ
    refine ⟨Γ, runAll_nil _ _ _, ⟨[], rfl⟩, hΓ, fun _ _ => rfl, ?_⟩
    rintro f (h | h)
    · cases h
    · exact h
  | cons f fs ih =>
    intro Γ hΓ
    have hfalse : lookup Γ (n "false") = none := by
      rw [lookup_none]
      intro hm
      rcases hΓ _ hm with h | h | ⟨f, h⟩
      · revert h; decide
      · revert h; decide
      · exact found_ne f (by decide) h.symm
    have h1 : run ρ k Γ (foundVarTree f) = some (.next ((foundName f, .bool false) :: Γ)) :=
      run_define (Is.valueOf (.false hfalse)) rfl
    have hΓ' : ∀ x ∈ keys ((foundName f, Val.bool false) :: Γ), x = n "r" ∨ x = n "v" ∨ ∃ f, x = foundName f := by
      intro x hx
      rcases List.mem_cons.1 (show x ∈ foundName f :: keys Γ from hx) with rfl | hx
      · exact .inr (.inr ⟨f, rfl⟩)
      · exact hΓ x hx
    obtain ⟨Δ, h2, ⟨ext, h3⟩, h4, h5, h6⟩ := ih _ hΓ'
    refine ⟨Δ, by rw [List.map_cons, runAll_next h1, h2], ⟨ext ++ [(foundName f, .bool false)], by rw [h3]; simp⟩, h4, ?_, ?_⟩
    · intro x hx
      rw [h5 x hx, lookup_cons, if_neg (hx f)]
    · intro f' hf'
      refine h6 f' ?_
      by_cases he : foundName f' = foundName f
      · right; rw [he, lookup_cons, if_pos rfl]
      · rcases hf' with hf' | hf'
        · rcases List.mem_cons.1 hf' with rfl | hf'
          · exact absurd rfl he
          · exact .inl hf'
        · right; rw [lookup_cons, if_neg he, hf']

/-- The error for a field that was not found. -/
def missing (kind : FieldKind) (f : Field) : Val := missingField f.id.toNat (if kind = .named then f.name.toList else [])

theorem check_found {ρ : Runtime} {k : Nat} {Γ : Env} {kind : FieldKind} {f : Field}
    (h : lookup Γ (foundName f) = some (.bool true)) : run ρ k Γ (foundCheckTree kind f) = some (.next Γ) :=
  run_if_false (Is.not (c := true) (.var h))

theorem check_missing {ρ : Runtime} {k : Nat} {Γ : Env} {kind : FieldKind} {f : Field}
    (h : lookup Γ (foundName f) = some (.bool false)) (hnil : lookup Γ (n "nil") = none) :
    run ρ k Γ (foundCheckTree kind f) = some (.ret [.nil, missing kind f] Γ) := by
  rw [foundCheckTree, run_if_true (Is.not (c := false) (.var h))]
  have hs : Is ρ Γ (.str (if kind = .named then f.name.toList else [])) (.text (if kind = .named then f.name.toList else [])) :=
    ⟨_, by rw [eval], rfl⟩
  have hl : Is ρ Γ (.lit (.qual (n "buf") (n "MissingFieldError") [])
      [.entry (n "ID") 3 (.nat f.id.toNat), .entry (n "Field") 0 (.str (if kind = .named then f.name.toList else []))])
      (missing kind f) := by
    refine ⟨.vals [missing kind f], ?_, rfl⟩
    rw [eval, typeName, Option.bind_some, evalEntries, evalEntries, evalEntries, (Is.nat ρ Γ _).bind, hs.bind]
    rfl
  have h := runAll_return (k := k) (ss := []) (evalList_two (.nil hnil) hl)
  refine (congrArg (Option.map (Out.leave Γ.length)) h).trans ?_
  simp [Out.leave, leave_self]

theorem checks_found {ρ : Runtime} {k : Nat} {Γ : Env} {kind : FieldKind} : ∀ (fs : List Field),
    (∀ f ∈ fs, lookup Γ (foundName f) = some (.bool true)) → runAll ρ k Γ (fs.map (foundCheckTree kind)) = some (.next Γ) := by
  intro fs
  induction fs with
  | nil => intro _; exact runAll_nil _ _ _
  | cons f fs ih =>
    intro h
    rw [List.map_cons, runAll_next (check_found (h f (by simp)))]
    exact ih fun f hf => h f (by simp [hf])

/-- The variables at the beginning of the loop. -/
theorem dec_start {ρ : Runtime} {k : Nat} (fs : List Field) (t : Text) (g : Text → Val) (r : List UInt8) :
    ∃ Γ K, runAll ρ k [(n "r", .bytes r), (n "v", .obj t g)] (fs.map foundVarTree) = some (.next Γ) ∧
      keys Γ = K ++ [n "v"] ∧ n "v" ∉ K ∧ DecVars Γ fs t g r (fun _ => false) := by
  have h0 : ∀ x ∈ keys [(n "r", Val.bytes r), (n "v", .obj t g)], x = n "r" ∨ x = n "v" ∨ ∃ f, x = foundName f := by
    intro x hx
    have : x ∈ [n "r", n "v"] := hx
    simp only [List.mem_cons, List.not_mem_nil, or_false] at this
    rcases this with h | h
    · exact .inl h
    · exact .inr (.inl h)
  obtain ⟨Γ, h1, ⟨ext, h2⟩, h3, h4, h5⟩ := founds (ρ := ρ) (k := k) fs _ h0
  have hr : lookup Γ (n "r") = some (.bytes r) := by rw [h4 _ fun f => (found_ne f (by decide)).symm, lookup_cons, if_pos rfl]
  have hv : lookup Γ (n "v") = some (.obj t g) := by
    rw [h4 _ fun f => (found_ne f (by decide)).symm, lookup_cons, if_neg (by decide), lookup_cons, if_pos rfl]
  refine ⟨Γ, keys ext ++ [n "r"], h1, by rw [h2]; simp [keys], ?_, h3, hr, hv, fun f hf => h5 f (.inl hf)⟩
  intro hm
  rcases List.mem_append.1 hm with hm | hm
  · have hext : ∀ (fs : List Field) (Γ Δ ext : Env), runAll ρ k Γ (fs.map foundVarTree) = some (.next Δ) → Δ = ext ++ Γ →
        (∀ x ∈ keys Γ, x = n "r" ∨ x = n "v" ∨ ∃ f, x = foundName f) → n "v" ∉ keys ext := by
      intro fs
      induction fs with
      | nil =>
        intro Γ Δ ext ha hb _ hm
        simp only [List.map_nil, runAll_nil, Option.some.injEq, Out.next.injEq] at ha
        have : ext = [] := by
          have := congrArg List.length hb
          rw [ha] at this
          simp at this; exact this
        subst this; cases hm
      | cons f fs ih =>
        intro Γ Δ ext ha hb hΓ hm
        have hfalse : lookup Γ (n "false") = none := by
          rw [lookup_none]
          intro hm
          rcases hΓ _ hm with h | h | ⟨f, h⟩
          · revert h; decide
          · revert h; decide
          · exact found_ne f (by decide) h.symm
        have h1 : run ρ k Γ (foundVarTree f) = some (.next ((foundName f, .bool false) :: Γ)) :=
          run_define (Is.valueOf (.false hfalse)) rfl
        have hΓ' : ∀ x ∈ keys ((foundName f, Val.bool false) :: Γ), x = n "r" ∨ x = n "v" ∨ ∃ f, x = foundName f := by
          intro x hx
          rcases List.mem_cons.1 (show x ∈ foundName f :: keys Γ from hx) with rfl | hx
          · exact .inr (.inr ⟨f, rfl⟩)
          · exact hΓ x hx
        rw [List.map_cons, runAll_next h1] at ha
        obtain ⟨Δ', h2, ⟨ext', h3⟩, _⟩ := founds (ρ := ρ) (k := k) fs _ hΓ'
        rw [h2] at ha
        simp only [Option.some.injEq, Out.next.injEq] at ha
        subst ha
        have hee : ext = ext' ++ [(foundName f, .bool false)] := by
          rw [h3, show ext' ++ (foundName f, Val.bool false) :: Γ = (ext' ++ [(foundName f, Val.bool false)]) ++ Γ by simp] at hb
          exact (List.append_cancel_right hb).symm
        rw [hee] at hm
        simp only [keys, List.map_append, List.map_cons, List.map_nil, List.mem_append, List.mem_cons, List.not_mem_nil, or_false] at hm
        rcases hm with hm | hm
        · exact ih _ _ ext' h2 h3 hΓ' hm
        · exact found_ne f (by decide) hm.symm
    exact hext fs _ _ ext h1 h2 h0 hm
  · revert hm; decide

/-- The variables behind the loop. -/
theorem dec_rounds {ρ : Runtime} {Leaf : Prim → Val → Prop} {tag : Nat → List UInt8} (hf : Faithful ρ Leaf tag) {k : Nat}
    {fs : Fields} {t : Text} {gv g : Text → Val} {bs : Field → List UInt8} {cs : List Stmt} (hc : allOf decFieldTree fs.fields = some cs)
    (hid : (fs.fields.map fun f => f.id.toNat).Nodup) (hn : (fs.fields.map fieldName).Nodup) (h0 : ∀ f ∈ fs.fields, f.id.toNat ≠ 0)
    (hu : fs.kind = .unit → fs.fields = []) (hs : ∀ f ∈ fs.fields, Sent ρ gv bs f) (hk : fs.fields.length + 2 ≤ k) (tl : List Stmt) :
    ∃ Δ g', runAll ρ k [(n "r", .bytes (message tag bs fs)), (n "v", .obj t g)]
        (fs.fields.map foundVarTree ++ .blank :: decLoopTree cs :: .blank :: tl) = runAll ρ k Δ tl ∧
      (∃ K, keys Δ = K ++ [n "v"] ∧ n "v" ∉ K) ∧ DecVars Δ fs.fields t g' [] (fun f => !isOption f.ty) ∧
      (∀ f ∈ fs.fields, isOption f.ty = false → g' (fieldName f) = gv (fieldName f)) ∧
      ∀ y, (∀ f ∈ fs.fields, isOption f.ty = false → fieldName f ≠ y) → g' y = g y := by
  obtain ⟨Γ, K, h1, h2, h3, h4⟩ := dec_start (ρ := ρ) (k := k) fs.fields t g (message tag bs fs)
  by_cases hkd : fs.kind = .unit
  · have hm : message tag bs fs = [] := by rw [message, if_pos hkd]
    have hnil := hu hkd
    rw [hm] at h1 h4 ⊢
    have hl : run ρ k Γ (decLoopTree cs) = some (.next Γ) := by
      rw [run_loop, show k = (k - 1) + 1 by omega]; exact loop_done h4
    refine ⟨Γ, g, ?_, ⟨K, h2, h3⟩, ⟨h4.names, h4.r, h4.v, ?_⟩, ?_, fun _ _ => rfl⟩
    · rw [runAll_append h1, runAll_next (run_blank _ _ _), runAll_next hl, runAll_next (run_blank _ _ _)]
    · intro f hf; rw [hnil] at hf; cases hf
    · intro f hf; rw [hnil] at hf; cases hf
  · have hm : message tag bs fs = fs.fields.flatMap (chunk tag bs) ++ tag 0 := by rw [message, if_neg hkd]
    rw [hm] at h1 h4 ⊢
    obtain ⟨Δ, g', found', l1, l2, l3, l4, l5, l6⟩ := loop_fields hf (k := k) (gv := gv) hc hid hn h0 hs fs.fields
      (k - (fs.fields.length + 2)) Γ g _ (fun _ h => h) h4
    have hl : run ρ k Γ (decLoopTree cs) = some (.next Δ) := by
      rw [run_loop, ← l1]; congr 1; omega
    refine ⟨Δ, g', ?_, ⟨K, by rw [l2, h2], h3⟩, ⟨l3.names, l3.r, l3.v, ?_⟩, fun f hf ho => (l4 f hf ho).1, l5⟩
    · rw [runAll_append h1, runAll_next (run_blank _ _ _), runAll_next hl, runAll_next (run_blank _ _ _)]
    · intro f hf
      rw [l3.found f hf]
      cases ho : isOption f.ty with
      | false => rw [(l4 f hf ho).2]; rfl
      | true =>
        rw [l6 f]; · rfl
        intro f' hf' ho' he
        have := loop_fields.inj_of_nodup hn hf' hf he
        rw [this, ho] at ho'; cases ho'

theorem dec_parts {fs : Fields} {body : List Stmt} (h : decBodyTree fs = some body) : ∃ cs, allOf decFieldTree fs.fields = some cs ∧
    body = fs.fields.map foundVarTree ++ .blank :: decLoopTree cs :: .blank ::
      (fs.fields.map (foundCheckTree fs.kind) ++ [.blank, .ret [var "r", var "nil"]]) := by
  simp only [decBodyTree, Option.bind_eq_bind, Option.bind_eq_some_iff, Option.pure_def, Option.some.injEq] at h
  obtain ⟨cs, h1, rfl⟩ := h
  exact ⟨cs, h1, by simp⟩

theorem invoke_dec {ρ : Runtime} {k : Nat} {body : List Stmt} {t : Text} {g g' : Text → Val} {r : List UInt8} {vs : List Val}
    {fs : List Field} {found : Field → Bool} {Δ : Env} {r' : List UInt8}
    (h : runAll ρ k [(n "r", .bytes r), (n "v", .obj t g)] body = some (.ret vs Δ)) {K : List Text} (hk : keys Δ = K ++ [n "v"])
    (hv : n "v" ∉ K) (hd : DecVars Δ fs t g' r' found) :
    invoke ρ k [(n "r", byteSlice)] body (.obj t g) [.bytes r] = some (vs, .obj t g') := by
  show (match runAll ρ k [(n "r", .bytes r), (n "v", .obj t g)] body with
    | some (.ret vs Δ) => (lookup (leave 1 Δ) (n "v")).map (vs, ·)
    | _ => none) = _
  rw [h]
  have hl : lookup (leave 1 Δ) (n "v") = some (.obj t g') := by rw [lookup_leave hk hv]; exact hd.v
  simp only [hl, Option.map_some]

/-- The result of a decoding method, for what the encoding method wrote. -/
theorem dec_invoke {ρ : Runtime} {Leaf : Prim → Val → Prop} {tag : Nat → List UInt8} (hf : Faithful ρ Leaf tag) {k : Nat}
    {fs : Fields} {t : Text} {gv g : Text → Val} {bs : Field → List UInt8} {body : List Stmt} (hb : decBodyTree fs = some body)
    (hid : (fs.fields.map fun f => f.id.toNat).Nodup) (hn : (fs.fields.map fieldName).Nodup) (h0 : ∀ f ∈ fs.fields, f.id.toNat ≠ 0)
    (hu : fs.kind = .unit → fs.fields = []) (hs : ∀ f ∈ fs.fields, Sent ρ gv bs f) (hk : fs.fields.length + 2 ≤ k) :
    ∃ g', invoke ρ k [(n "r", byteSlice)] body (.obj t g) [.bytes (message tag bs fs)] =
        some (match fs.fields.find? (fun f => isOption f.ty) with
          | none => [.bytes [], .nil]
          | some f => [.nil, missing fs.kind f], .obj t g') ∧
      (∀ f ∈ fs.fields, isOption f.ty = false → g' (fieldName f) = gv (fieldName f)) ∧
      ∀ y, (∀ f ∈ fs.fields, isOption f.ty = false → fieldName f ≠ y) → g' y = g y := by
  obtain ⟨cs, hc, rfl⟩ := dec_parts hb
  obtain ⟨Δ, g', h1, ⟨K, h2, h3⟩, h4, h5, h6⟩ := dec_rounds hf (k := k) (t := t) (g := g) hc hid hn h0 hu hs hk
    (fs.fields.map (foundCheckTree fs.kind) ++ [.blank, .ret [var "r", var "nil"]])
  refine ⟨g', ?_, h5, h6⟩
  have hnil := h4.none (x := "nil") (by decide) (by decide) (by decide)
  cases hfi : fs.fields.find? (fun f => isOption f.ty) with
  | none =>
    rw [List.find?_eq_none] at hfi
    have hck : runAll ρ k Δ (fs.fields.map (foundCheckTree fs.kind)) = some (.next Δ) := by
      refine checks_found fs.fields fun f hf => ?_
      rw [h4.found f hf]
      have := hfi f hf
      simp only [Bool.not_eq_true] at this
      rw [this]; rfl
    refine invoke_dec (h1.trans ?_) h2 h3 h4
    rw [runAll_append hck, runAll_next (run_blank _ _ _)]
    exact runAll_return (evalList_two (.var h4.r) (.nil hnil))
  | some f =>
    obtain ⟨ho, pre, post, hsp, hpre⟩ := List.find?_eq_some_iff_append.1 hfi
    have hck : runAll ρ k Δ (pre.map (foundCheckTree fs.kind)) = some (.next Δ) := by
      refine checks_found pre fun f hf => ?_
      rw [h4.found f (by rw [hsp]; simp [hf])]
      have := hpre f hf
      rw [this]
    have hm : f ∈ fs.fields := by rw [hsp]; simp
    have hms := check_missing (ρ := ρ) (k := k) (kind := fs.kind) (f := f) (Γ := Δ) (by rw [h4.found f hm, ho]; rfl) hnil
    refine invoke_dec (h1.trans ?_) h2 h3 h4
    rw [hsp, List.map_append, List.append_assoc, runAll_append hck, List.map_cons, List.cons_append, runAll_stop hms]

end Mabo.Go
