import Verif.Go.EnoughExpr
/-! Methods and files without violations. -/
namespace Mabo.Go
open Mabo.Simplify Mabo.Spec Mabo.Spec.GoRules Mabo.Spec.GoBuild Mabo.Build
open Mabo.Ast (DataType)
open Mabo.Parse (Text)

/-! ### Statements -/

theorem stmts_same {ds : List Decl} {Γ : GoRules.Scope} {k : Nat} : ∀ {ss : List Stmt} (tt : List Stmt),
    (∀ s ∈ ss, stmtProblems ds Γ k s = [] ∧ behind Γ s = Γ) → stmtsProblems ds Γ k (ss ++ tt) = stmtsProblems ds Γ k tt
  | [], tt, _ => rfl
  | s :: ss, tt, h => by
    have h1 := h s List.mem_cons_self
    rw [List.cons_append, stmtsProblems, h1.1, h1.2, List.nil_append]
    exact stmts_same tt fun s hs => h s (List.mem_cons_of_mem _ hs)

/-- The scope in a method of a type. -/
structure InMethod (recv : Text) (Γ : GoRules.Scope) : Prop where
  base : Base Γ
  v : meaning Γ (n "v") = some (.variable (.name recv []))
  type : meaning Γ recv = some .type

/-- A local variable. -/
structure Local (recv y : Text) : Prop where
  free : Free y
  v : y ≠ n "v"
  recv : y ≠ recv

theorem InMethod.cons {recv : Text} {Γ : GoRules.Scope} (h : InMethod recv Γ) {y : Text} (hy : Local recv y) (m : Meaning) :
    InMethod recv ((y, m) :: Γ) where
  base := h.base.cons hy.free m
  v := by rw [meaning_cons, if_neg hy.v]; exact h.v
  type := by rw [meaning_cons, if_neg hy.recv]; exact h.type

/-- It does not start with a small letter. -/
def NotLower (x : Text) : Prop := ∀ c cs, x = c :: cs → c.isLower = false

theorem NotLower.ne {x : Text} (h : NotLower x) {c : Char} {cs : Text} (hc : c.isLower = true) : c :: cs ≠ x := fun he => by
  rw [h c cs he.symm] at hc; cases hc

theorem local_of {recv : Text} (hr : NotLower recv) {c : Char} {cs : Text} (hc : c.isLower = true) (hf : Free (c :: cs))
    (hv : c :: cs ≠ n "v") : Local recv (c :: cs) := ⟨hf, hv, hr.ne hc⟩

theorem found_free (x : Text) : Free (n "found" ++ x) := by
  have h1 : ∀ y ∈ n "buf" :: n "mabo" :: predeclaredTypes, y.take 5 ≠ n "found" := by decide
  have h2 : (n "found" ++ x).take 5 = n "found" := List.take_left' rfl
  refine ⟨fun h => h1 _ (List.mem_cons_of_mem _ (List.mem_cons_of_mem _ h)) h2, fun h => ?_, fun h => ?_⟩
  · exact h1 _ List.mem_cons_self (h ▸ h2)
  · exact h1 _ (List.mem_cons_of_mem _ List.mem_cons_self) (h ▸ h2)

theorem found_local {recv : Text} (hr : NotLower recv) (x : Text) : Local recv (n "found" ++ x) :=
  local_of (c := 'f') (cs := n "ound" ++ x) hr (by decide) (found_free x) (by
    intro h; injection h with h _; exact absurd h (by decide))

section
variable {ds : List Decl}

/-- A field of the receiver. -/
theorem field_ok {recv : Text} {Γ : GoRules.Scope} (h : InMethod recv Γ) {gfs : List GField} (hf : findType ds recv = some (.struct gfs))
    {x : Text} (hx : x ∈ gfs.map (·.name)) : exprProblems ds Γ (.sel (var "v") x) = [] := by
  have hlen : ∃ k, ds.length = k + 1 := by
    cases ds with
    | nil => cases hf
    | cons d ds => exact ⟨ds.length, rfl⟩
  obtain ⟨k, hk⟩ := hlen
  have hu : underlying ds ds.length recv = some (.struct gfs) := by rw [hk, underlying, hf]
  have hm : membersOf ds Γ (n "v") = some (gfs.map (fun g => (⟨g.name, none⟩ : Member)) ++ methodsOf ds recv) := by
    rw [membersOf, h.v]
    simp only [members, h.type, hu]
  have ha : ((gfs.map (fun g => (⟨g.name, none⟩ : Member)) ++ methodsOf ds recv).any fun m : Member => m.name == x) = true := by
    rw [List.any_eq_true]
    obtain ⟨gf, hg, rfl⟩ := List.mem_map.1 hx
    exact ⟨⟨gf.name, none⟩, List.mem_append_left _ (List.mem_map.2 ⟨gf, hg, rfl⟩), by simp⟩
  have hv : (meaning Γ (n "v")).isSome = true := by rw [h.v]; rfl
  rw [exprProblems, var_ok hv]
  simp only [var, selProblems, hm, ha, demand, if_true, List.nil_append]

/-- What is known about the fields. -/
structure FieldsOk (ds : List Decl) (recv : Text) (fs : Fields) : Prop where
  notLower : NotLower recv
  find : ∃ gfs, findType ds recv = some (.struct gfs) ∧ gfs.map (·.name) = fs.fields.map fieldName
  plain : ∀ f ∈ fs.fields, ∃ t, f.ty = simplifyType t ∧ PlainTy t ∧ NoTuple t

theorem FieldsOk.sel {recv : Text} {fs : Fields} (h : FieldsOk ds recv fs) {Γ : GoRules.Scope} (hΓ : InMethod recv Γ) {f : Field}
    (hf : f ∈ fs.fields) : exprProblems ds Γ (.sel (var "v") (fieldName f)) = [] := by
  obtain ⟨gfs, h1, h2⟩ := h.find
  exact field_ok hΓ h1 (h2 ▸ List.mem_map_of_mem hf)

theorem w_local {recv : Text} (h : NotLower recv) : Local recv (n "w") := local_of h (by decide) (by decide) (by decide)
theorem r_local {recv : Text} (h : NotLower recv) : Local recv (n "r") := local_of h (by decide) (by decide) (by decide)

theorem option_ty {t u} (h : simplifyType t = .option u) : ∃ t', t = .option t' ∧ u = simplifyType t' := by
  cases t with
  | option t' => rw [simplifyType] at h; injection h with h; exact ⟨t', rfl, h.symm⟩
  | _ => simp [simplifyType] at h

theorem call_buf (x : Text) (k : Nat) : callProblems (buf x) k = [] := rfl
theorem call_inst (e : Expr) (ts : List GTy) (k : Nat) : callProblems (.inst e ts) k = [] := rfl

theorem encField_ok {recv : Text} {fs : Fields} (h : FieldsOk ds recv fs) {Γ : GoRules.Scope} (hΓ : InMethod recv Γ)
    (hw : (meaning Γ (n "w")).isSome = true) {f : Field} (hf : f ∈ fs.fields) {s : Stmt} (hs : encFieldTree f = some s) (k : Nat) :
    stmtProblems ds Γ k s = [] ∧ behind Γ s = Γ := by
  obtain ⟨t, ht, hp, hn⟩ := h.plain f hf
  have hsel := h.sel hΓ hf
  have plain : encPlainTree f = some s → stmtProblems ds Γ k s = [] ∧ behind Γ s = Γ := by
    intro h1
    simp only [encPlainTree, Option.bind_eq_bind, Option.bind_eq_some_iff, Option.pure_def, Option.some.injEq, ht] at h1
    obtain ⟨x, hx, rfl⟩ := h1
    refine ⟨?_, rfl⟩
    have hΓ' : InMethod recv (GoRules.bind [(n "w", byteSlice)] Γ) := hΓ.cons (w_local h.notLower) _
    have hw' : (meaning (GoRules.bind [(n "w", byteSlice)] Γ) (n "w")).isSome = true := isSome_cons hw
    obtain ⟨i1, i2⟩ := enc_ok (ds := ds) t hx hp.inner hn hΓ'.base hw' (h.sel hΓ' hf) (fun a ha => rfl)
    have hnm : namesOk [n "w"] = [] := by decide
    simp [stmtProblems, exprProblems, exprsProblems, buf_ok hΓ.base, var_ok hw, tysProblems, bytes_ok hΓ.base, returns, stmtsProblems,
      i1, returnProblems, i2, demand, call_buf, hnm]
  cases hty : f.ty with
  | option u =>
    obtain ⟨t', rfl, rfl⟩ := option_ty (ht.symm.trans hty)
    rw [encFieldTree.eq_def, hty] at hs
    simp only [Option.bind_eq_bind, Option.bind_eq_some_iff, Option.pure_def, Option.some.injEq] at hs
    obtain ⟨g, hg, x, hx, rfl⟩ := hs
    have hp' : PlainTy t' := hp.inner
    obtain ⟨s1, s2, s3⟩ := encScope hΓ.base (x := "v") (.inl rfl) g
    have hg' := ty_ok hΓ.base t' hg hp'
    obtain ⟨i1, i2⟩ := enc_ok (ds := ds) t' hx hp'.inner (noTuple_option hn) s1 s2 (var_ok (by rw [s3]; rfl)) fun a ha => get_ok ha hg s3
    have hnm : namesOk [n "w", n "v"] = [] := by decide
    refine ⟨?_, rfl⟩
    simp only [exprProblems] at hsel
    simp [stmtProblems, exprProblems, exprsProblems, buf_ok hΓ.base, var_ok hw, tysProblems, bytes_ok hΓ.base, returns, stmtsProblems,
      i1, returnProblems, i2, demand, call_inst, hnm, hg', hsel]
  | _ => exact plain (by rw [← hs, encFieldTree.eq_def, encPlainTree, hty])

theorem sizeField_ok {recv : Text} {fs : Fields} (h : FieldsOk ds recv fs) {Γ : GoRules.Scope} (hΓ : InMethod recv Γ)
    (hz : (meaning Γ (n "size")).isSome = true) {f : Field} (hf : f ∈ fs.fields) {s : Stmt} (hs : sizeFieldTree f = some s) (k : Nat) :
    stmtProblems ds Γ k s = [] ∧ behind Γ s = Γ := by
  obtain ⟨t, ht, hp, hn⟩ := h.plain f hf
  have hsel := h.sel hΓ hf
  have hint : tyProblems Γ (named "int") = [] := named_ok hΓ.base (by decide)
  have plain : sizePlainTree f = some s → stmtProblems ds Γ k s = [] ∧ behind Γ s = Γ := by
    intro h1
    simp only [sizePlainTree, Option.bind_eq_bind, Option.bind_eq_some_iff, Option.pure_def, Option.some.injEq, ht] at h1
    obtain ⟨x, hx, rfl⟩ := h1
    refine ⟨?_, rfl⟩
    have hΓ' : GoRules.bind [] Γ = Γ := rfl
    obtain ⟨i1, i2⟩ := size_ok (ds := ds) t hx hp.inner hn hΓ.base hsel (fun a ha => rfl)
    have hnm : namesOk [] = [] := by decide
    simp [stmtProblems, exprProblems, exprsProblems, buf_ok hΓ.base, var_ok hz, tysProblems, hint, returns, stmtsProblems,
      i1, returnProblems, i2, demand, call_buf, hnm, hΓ']
  cases hty : f.ty with
  | option u =>
    obtain ⟨t', rfl, rfl⟩ := option_ty (ht.symm.trans hty)
    rw [sizeFieldTree.eq_def, hty] at hs
    simp only [Option.bind_eq_bind, Option.bind_eq_some_iff, Option.pure_def, Option.some.injEq] at hs
    obtain ⟨g, hg, x, hx, rfl⟩ := hs
    have hp' : PlainTy t' := hp.inner
    obtain ⟨s1, s3⟩ := sizeScope hΓ.base (x := "v") (.inl rfl) g
    have hg' := ty_ok hΓ.base t' hg hp'
    obtain ⟨i1, i2⟩ := size_ok (ds := ds) t' hx hp'.inner (noTuple_option hn) s1 (var_ok (by rw [s3]; rfl)) fun a ha => get_ok ha hg s3
    have hnm : namesOk [n "v"] = [] := by decide
    refine ⟨?_, rfl⟩
    simp only [exprProblems] at hsel
    simp [stmtProblems, exprProblems, exprsProblems, buf_ok hΓ.base, var_ok hz, tysProblems, hint, returns, stmtsProblems,
      i1, returnProblems, i2, demand, call_inst, hnm, hg', hsel]
  | _ => exact plain (by rw [← hs, sizeFieldTree.eq_def, sizePlainTree, hty])

/-! ### Decoding -/

/-- The scope in `Decode`: the variables of the fields are declared. -/
structure InDecode (recv : Text) (fs : List Field) (Γ : GoRules.Scope) : Prop where
  toInMethod : InMethod recv Γ
  r : (meaning Γ (n "r")).isSome = true
  found : ∀ f ∈ fs, (meaning Γ (foundName f)).isSome = true

theorem InDecode.cons {recv : Text} {fs : List Field} {Γ : GoRules.Scope} (h : InDecode recv fs Γ) {y : Text} (hy : Local recv y)
    (m : Meaning) : InDecode recv fs ((y, m) :: Γ) where
  toInMethod := h.toInMethod.cons hy m
  r := isSome_cons h.r
  found f hf := isSome_cons (h.found f hf)

theorem foundVars_ok {recv : Text} (hr : NotLower recv) {k : Nat} {rest : List Stmt} : ∀ (l done : List Field) {Γ : GoRules.Scope},
    InDecode recv done Γ → (∀ Γ', InDecode recv (done ++ l) Γ' → stmtsProblems ds Γ' k rest = []) →
    stmtsProblems ds Γ k (l.map foundVarTree ++ rest) = []
  | [], done, Γ, hΓ, h => h Γ (by simpa using hΓ)
  | f :: l, done, Γ, hΓ, h => by
    have hv : (meaning Γ (n "false")).isSome = true := hΓ.toInMethod.base.values _ (by decide)
    have h1 : stmtProblems ds Γ k (foundVarTree f) = [] := by rw [foundVarTree, stmtProblems]; exact var_ok hv
    rw [List.map_cons, List.cons_append, stmtsProblems, h1, List.nil_append]
    refine foundVars_ok hr l (done ++ [f]) (Γ := (foundName f, .other) :: Γ) ?_ fun Γ' h' => h Γ' (by simpa using h')
    have hl := hΓ.cons (found_local hr (fieldName f)) .other
    refine ⟨hl.toInMethod, hl.r, fun g hg => ?_⟩
    rcases List.mem_append.1 hg with hg | hg
    · exact hl.found g hg
    · rw [List.mem_singleton] at hg
      subst hg
      rw [meaning_cons, if_pos rfl]; rfl

theorem nil_ok {Γ : GoRules.Scope} (hΓ : Base Γ) : exprProblems ds Γ (var "nil") = [] := var_ok (hΓ.values _ (by decide))

theorem head_isSome {y : Text} {m : Meaning} {Γ : GoRules.Scope} : (meaning ((y, m) :: Γ) y).isSome = true := by
  rw [meaning_cons, if_pos rfl]; rfl

theorem r2_local {recv : Text} (h : NotLower recv) : Local recv (n "r2") := local_of h (by decide) (by decide) (by decide)
theorem value_local {recv : Text} (h : NotLower recv) : Local recv (n "value") := local_of h (by decide) (by decide) (by decide)
theorem id_local {recv : Text} (h : NotLower recv) : Local recv (n "id") := local_of h (by decide) (by decide) (by decide)
theorem err_local {recv : Text} (h : NotLower recv) : Local recv (n "err") := local_of h (by decide) (by decide) (by decide)
theorem size_local {recv : Text} (h : NotLower recv) : Local recv (n "size") := local_of h (by decide) (by decide) (by decide)

theorem decField_ok {recv : Text} {fs : Fields} (h : FieldsOk ds recv fs) {Γ : GoRules.Scope} (hΓ : InDecode recv fs.fields Γ)
    {f : Field} (hf : f ∈ fs.fields) {s : Stmt} (hs : decFieldTree f = some s) :
    stmtProblems ds Γ 2 s = [] ∧ behind Γ s = Γ := by
  obtain ⟨t, ht, hp, hn⟩ := h.plain f hf
  simp only [decFieldTree, Option.bind_eq_bind, Option.bind_eq_some_iff, Option.pure_def, Option.some.injEq, ht] at hs
  obtain ⟨x, hx, rfl⟩ := hs
  refine ⟨?_, rfl⟩
  obtain ⟨i1, _⟩ := dec_ok (ds := ds) t hx hp.inner hn hΓ.toInMethod.base hΓ.r
  have hΓ' : InDecode recv fs.fields ((n "r2", .other) :: (n "value", .other) :: (n "err", .other) :: Γ) :=
    ((hΓ.cons (err_local h.notLower) _).cons (value_local h.notLower) _).cons (r2_local h.notLower) _
  have hsel := h.sel hΓ'.toInMethod hf
  have hb := hΓ'.toInMethod.base
  have e1 : exprProblems ds ((n "r2", .other) :: (n "value", .other) :: (n "err", .other) :: Γ) (var "r2") = [] := var_ok head_isSome
  have e2 : exprProblems ds ((n "r2", .other) :: (n "value", .other) :: (n "err", .other) :: Γ) (var "value") = [] :=
    var_ok (isSome_cons head_isSome)
  have e3 : exprProblems ds ((n "r2", .other) :: (n "value", .other) :: (n "err", .other) :: Γ) (var "err") = [] :=
    var_ok (isSome_cons (isSome_cons head_isSome))
  have e4 := var_ok (ds := ds) hΓ'.r
  have e5 : exprProblems ds ((n "r2", .other) :: (n "value", .other) :: (n "err", .other) :: Γ) (var "true") = [] :=
    var_ok (hb.values _ (by decide))
  have e6 := hΓ'.found f hf
  simp only [exprProblems] at hsel
  simp [stmtProblems, exprProblems, stmtsProblems, i1, behind, bindNames, e1, e2, e3, e4, e5, e6, nil_ok hb, exprsProblems,
    returnProblems, demand, hsel]

theorem decLoop_ok {recv : Text} {fs : Fields} (h : FieldsOk ds recv fs) {Γ : GoRules.Scope} (hΓ : InDecode recv fs.fields Γ)
    {cases : List Stmt} (hc : allOf decFieldTree fs.fields = some cases) : stmtProblems ds Γ 2 (decLoopTree cases) = [] := by
  have hΓ' : InDecode recv fs.fields ((n "r2", .other) :: (n "id", .other) :: (n "err", .other) :: Γ) :=
    ((hΓ.cons (err_local h.notLower) _).cons (id_local h.notLower) _).cons (r2_local h.notLower) _
  have hb := hΓ'.toInMethod.base
  have e1 : exprProblems ds ((n "r2", .other) :: (n "id", .other) :: (n "err", .other) :: Γ) (var "r2") = [] := var_ok head_isSome
  have e2 : exprProblems ds ((n "r2", .other) :: (n "id", .other) :: (n "err", .other) :: Γ) (var "id") = [] :=
    var_ok (isSome_cons head_isSome)
  have e3 : exprProblems ds ((n "r2", .other) :: (n "id", .other) :: (n "err", .other) :: Γ) (var "err") = [] :=
    var_ok (isSome_cons (isSome_cons head_isSome))
  have e4 := var_ok (ds := ds) hΓ'.r
  have e5 : exprProblems ds Γ (var "len") = [] := var_ok (hΓ.toInMethod.base.values _ (by decide))
  have e6 := var_ok (ds := ds) hΓ.r
  have hcs := stmts_same (ds := ds) (k := 2) (Γ := (n "r2", .other) :: (n "id", .other) :: (n "err", .other) :: Γ) (ss := cases)
    [.case (buf (n "EndMarker")) [.brk]] fun s hs => by
      obtain ⟨f, hf, he⟩ := (allOf_mem hc).2 s hs
      exact decField_ok h hΓ' hf he
  have hl : ∀ k, callProblems (var "len") k = [] := fun _ => rfl
  simp [decLoopTree, stmtProblems, exprProblems, stmtsProblems, behind, bindNames, e1, e2, e3, e4, e5, e6, nil_ok hb, exprsProblems,
    returnProblems, demand, buf_ok hΓ.toInMethod.base, buf_ok hb, call_buf, hl, hcs]

theorem foundCheck_ok {recv : Text} {fs : List Field} {Γ : GoRules.Scope} (hΓ : InDecode recv fs Γ) (kind : Schema.FieldKind)
    {f : Field} (hf : f ∈ fs) : stmtProblems ds Γ 2 (foundCheckTree kind f) = [] ∧ behind Γ (foundCheckTree kind f) = Γ := by
  refine ⟨?_, rfl⟩
  have hb := hΓ.toInMethod.base
  simp [foundCheckTree, stmtProblems, exprProblems, hΓ.found f hf, demand, stmtsProblems, exprsProblems, nil_ok hb, tyProblems,
    hb.buf, isPackage, tysProblems, returnProblems]

theorem decBody_ok {recv : Text} {fs : Fields} (h : FieldsOk ds recv fs) {Γ : GoRules.Scope} (hΓ : InDecode recv [] Γ)
    {body : List Stmt} (hb : decBodyTree fs = some body) : stmtsProblems ds Γ 2 body = [] := by
  simp only [decBodyTree, Option.bind_eq_bind, Option.bind_eq_some_iff, Option.pure_def, Option.some.injEq] at hb
  obtain ⟨cases, hc, rfl⟩ := hb
  rw [List.append_assoc]
  refine foundVars_ok h.notLower fs.fields [] hΓ fun Γ' hΓ' => ?_
  rw [List.nil_append] at hΓ'
  have h1 := decLoop_ok h hΓ' hc
  have h2 := stmts_same (ds := ds) (k := 2) (Γ := Γ') (ss := fs.fields.map (foundCheckTree fs.kind))
    [.blank, .ret [var "r", var "nil"]] fun s hs => by
      obtain ⟨f, hf, rfl⟩ := List.mem_map.1 hs
      exact foundCheck_ok hΓ' _ hf
  have e1 := var_ok (ds := ds) hΓ'.r
  have hbh : ∀ cs, behind Γ' (decLoopTree cs) = Γ' := fun _ => rfl
  have hbb : behind Γ' .blank = Γ' := rfl
  simp [stmtsProblems, stmtProblems, h1, h2, hbh, hbb, exprsProblems, e1, nil_ok hΓ'.toInMethod.base, returnProblems, demand]

theorem encBody_ok {recv : Text} {fs : Fields} (h : FieldsOk ds recv fs) {Γ : GoRules.Scope} (hΓ : InMethod recv Γ)
    (hw : (meaning Γ (n "w")).isSome = true) {ret : String} (hret : ret = "w" ∨ ret = "nil")
    {body : List Stmt} (hb : encFieldsTree fs = some body) : stmtsProblems ds Γ 1 (body ++ [.ret [var ret]]) = [] := by
  have hr : stmtsProblems ds Γ 1 [.ret [var ret]] = [] := by
    have e : exprProblems ds Γ (var ret) = [] := by
      rcases hret with rfl | rfl
      · exact var_ok hw
      · exact nil_ok hΓ.base
    have hc : valueCount ds Γ (var ret) = some 1 := rfl
    simp [stmtsProblems, stmtProblems, exprsProblems, e, returnProblems, hc, demand]
  rw [encFieldsTree] at hb
  split at hb
  · cases hb; exact hr
  · simp only [Option.bind_eq_bind, Option.bind_eq_some_iff, Option.pure_def, Option.some.injEq] at hb
    obtain ⟨ss, hs, rfl⟩ := hb
    rw [List.append_assoc, stmts_same _ fun s hm => by
      obtain ⟨f, hf, he⟩ := (allOf_mem hs).2 s hm
      exact encField_ok h hΓ hw hf he 1]
    rw [List.singleton_append, stmtsProblems]
    have hbh : ∀ a b, behind Γ (.assign a b) = Γ := fun _ _ => rfl
    rw [hbh, hr]
    simp [stmtProblems, exprProblems, exprsProblems, var_ok hw, buf_ok hΓ.base, call_buf]

theorem sizeBody_ok {recv : Text} {fs : Fields} (h : FieldsOk ds recv fs) {Γ : GoRules.Scope} (hΓ : InMethod recv Γ)
    {body : List Stmt} (hb : sizeFieldsTree fs = some body) :
    stmtsProblems ds Γ 1 (.define [n "size"] (.nat 0) :: body ++ [.ret [var "size"]]) = [] := by
  have hΓ' : InMethod recv ((n "size", .other) :: Γ) := hΓ.cons (size_local h.notLower) _
  have hz : (meaning ((n "size", .other) :: Γ) (n "size")).isSome = true := head_isSome
  have hr : stmtsProblems ds ((n "size", .other) :: Γ) 1 [.ret [var "size"]] = [] := by
    have e : exprProblems ds ((n "size", .other) :: Γ) (var "size") = [] := var_ok hz
    have hc : valueCount ds ((n "size", .other) :: Γ) (var "size") = some 1 := rfl
    simp [stmtsProblems, stmtProblems, exprsProblems, e, returnProblems, hc, demand]
  have hrest : stmtsProblems ds ((n "size", .other) :: Γ) 1 (body ++ [.ret [var "size"]]) = [] := by
    rw [sizeFieldsTree] at hb
    split at hb
    · cases hb; exact hr
    · simp only [Option.bind_eq_bind, Option.bind_eq_some_iff, Option.pure_def, Option.some.injEq] at hb
      obtain ⟨ss, hs, rfl⟩ := hb
      rw [List.append_assoc, stmts_same _ fun s hm => by
        obtain ⟨f, hf, he⟩ := (allOf_mem hs).2 s hm
        exact sizeField_ok h hΓ' hz hf he 1]
      rw [List.singleton_append, stmtsProblems]
      have hbh : ∀ a b, behind ((n "size", .other) :: Γ) (.addAssign a b) = (n "size", .other) :: Γ := fun _ _ => rfl
      rw [hbh, hr]
      simp [stmtProblems, var_ok hz, buf_ok hΓ'.base]
  rw [List.cons_append, stmtsProblems]
  exact List.append_eq_nil_iff.2 ⟨rfl, hrest⟩
end

end Mabo.Go
