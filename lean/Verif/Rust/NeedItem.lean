import Verif.Rust.NeedDecode
import Verif.Rust.DecodeKnot
/-!
The converse of `Rust/ItemSem.lean` and `Rust/DecodeDef.lean`: if all three functions of a struct or enum compile, then it
satisfies `itemGood`.
-/
namespace Mabo.Rust
open Mabo.Schema (Prim Ty FieldKind)

theorem all_some {α β : Type} {f : α → Option β} : ∀ {l : List α} {xs : List β}, all (l.map f) = some xs →
    ∀ a ∈ l, ∃ x ∈ xs, f a = some x
  | [], _, _, _, h => nomatch h
  | b :: l, xs, h, a, ha => by
    simp only [List.map_cons, all] at h
    cases h1 : f b with
    | none => simp [h1] at h
    | some x =>
      cases h2 : all (l.map f) with
      | none => simp [h1, h2] at h
      | some ys =>
        simp only [h1, h2, Option.some.injEq] at h
        subst h
        rcases List.mem_cons.1 ha with rfl | ha
        · exact ⟨x, List.mem_cons_self, h1⟩
        · obtain ⟨y, hy, h3⟩ := all_some h2 a ha
          exact ⟨y, List.mem_cons_of_mem _ hy, h3⟩

theorem names_need {sc : Scope} {fs : Simplify.Fields} {kind : FieldKind} {lfs : Schema.Fields}
    (hl : lfs = Build.lowerFields sc.look sc.generics fs)
    (h : namesOk kind lfs (fs.fields.map (·.name)) = true) :
    (fs.fields.map (·.name)).Nodup ∧ (∀ f ∈ fs.fields, keywords.contains f.name = false) ∧ (fs.kind = .unit → fs.fields = []) := by
  subst hl
  simp only [namesOk, Bool.and_eq_true, decide_eq_true_eq, List.all_eq_true] at h
  obtain ⟨⟨⟨hk, hn⟩, hw⟩, hm⟩ := h
  refine ⟨hn, fun f hf => by simpa using hw f.name (List.mem_map.2 ⟨f, hf, rfl⟩), fun hu => ?_⟩
  have hk : kind = fs.kind := hk
  rw [hk, hu] at hm
  have hm : fs.fields = [] ∧ (Build.lowerFields sc.look sc.generics fs).fields = [] := by simpa using hm
  exact hm.1

/-! ### Sizes -/

theorem Acc.ofSum {c : Ctx} {es : List Expr} {exp : Option RType} {x : RType × M}
    (h : (den (.sum es)).plain c exp = some x) : Acc c es := by
  simp only [den, Arg.expr, sumSem] at h
  cases h2 : operands c (denList es) with
  | none => simp [h2] at h
  | some ms => exact Acc.ofOperands h2

theorem size_field_need {o : BytesType} {sc : Scope} {f : Simplify.Field} {c : Ctx} {e : Expr} {b : Bool} (hc : c.opts = o)
    (hs : c.scope = sc) (hv : c.find f.name = some (.ref (.own (low sc f.ty)), b)) (he : sizeField o f = some e)
    (ha : Acc c [e]) : refOk o sc.arity 0 (low sc f.ty) = true := by
  by_cases ho : ∃ t, f.ty = .option t
  · obtain ⟨t, ho⟩ := ho
    simp only [sizeField, ho, sizeTy] at he
    cases h1 : sizeOps o t (.var "v") with
    | none => simp [h1] at he
    | some es =>
      simp [h1] at he
      subst he
      rw [ho] at hv ⊢
      simp only [low, Build.lowerTy] at hv ⊢
      obtain ⟨exp, r, h⟩ := ha.call
      simp only [denList, callSem, lit_check, asRef_var hv, Option.bind_eq_bind, Option.bind_some] at h
      cases hf : (den (.closure ["v"] [.tail (add es)])).fn c [.ref (.own (Build.lowerTy sc.look sc.generics t))] .usize with
      | none => simp [hf] at h
      | some g =>
        obtain ⟨c', m', h2, h3, h4, h5⟩ := clos_acc hf
        have := size_need o sc t 0 _ c' m' es rfl (h2.trans hc) (h3.trans hs) h4 h1 h5
        simpa [refOk] using this
  · have he' : ∃ es, sizeOps o f.ty (.var f.name) = some es ∧
        e = .call .sizeField [.lit f.id.toNat, .closure [] [.tail (add es)]] := by
      unfold sizeField at he
      split at he
      · next t h => exact absurd ⟨t, h⟩ ho
      · simp only [sizeTy] at he
        cases h1 : sizeOps o f.ty (.var f.name) with
        | none => simp [h1] at he
        | some es =>
          simp [h1] at he
          exact ⟨es, rfl, he.symm⟩
    obtain ⟨es, h1, rfl⟩ := he'
    obtain ⟨exp, r, h⟩ := ha.call
    simp only [denList, callSem, lit_check, Option.bind_eq_bind, Option.bind_some] at h
    cases hf : (den (.closure [] [.tail (add es)])).fn c [] .usize with
    | none => simp [hf] at h
    | some g =>
      obtain ⟨u, m, h2, h3⟩ := fn_some hf
      have := same_usize h3
      subst this
      simp only [denStmts, denStmt, seqSem] at h2
      exact size_need o sc f.ty 0 _ (c.clos [] [] .usize) _ es rfl hc hs (place_var (find_clos hv rfl)) h1 (Acc.ofAdd h2)

theorem size_fields_need {o : BytesType} {sc : Scope} {fs : Simplify.Fields} {c : Ctx} {es : List Expr} (hc : c.opts = o)
    (hs : c.scope = sc) (hn : (fs.fields.map (·.name)).Nodup) (hu : fs.kind = .unit → fs.fields = [])
    (he : sizeFields o fs = some es) (ha : Acc (inFields c sc fs) es) :
    ∀ f ∈ fs.fields, refOk o sc.arity 0 (low sc f.ty) = true := by
  intro f hf
  have hk : fs.kind ≠ .unit := fun h => by
    rw [hu h] at hf
    cases hf
  simp only [sizeFields, hk, if_false] at he
  cases h1 : all (fs.fields.map (sizeField o)) with
  | none => simp [h1] at he
  | some es' =>
    simp [h1] at he
    subst he
    obtain ⟨e, he, h2⟩ := all_some h1 f hf
    obtain ⟨b, hv⟩ := hasFields_of (sc := sc) (c := inFields c sc fs) (rest := c.vars) hn
      (by simp only [inFields, fieldVars_eq]) f hf
    refine size_field_need (c := inFields c sc fs) hc hs hv h2 fun x hx => ?_
    rw [List.mem_singleton] at hx
    subst hx
    exact ha x (List.mem_append_left _ he)

/-- What the functions of structs require. -/
theorem unpack_need {c : Ctx} {kind : FieldKind} {names : List String} {rest : List StmtSem} {exp : Option RType}
    {fs : Schema.Fields} (hs : c.self = .struct fs) {x : RType × M} (h : seqSem (.unpack kind names :: rest) c exp = some x) :
    namesOk kind fs names = true ∧
      ∃ m, seqSem rest { c with vars := fieldVars names (fs.fields.map (·.ty)) ++ c.vars } exp = some (x.1, m) := by
  simp only [seqSem, hs] at h
  split at h
  · next hn =>
    refine ⟨hn, ?_⟩
    cases h1 : varSem "self" c none with
    | none => simp [h1] at h
    | some y =>
      obtain ⟨t, m⟩ := y
      simp only [h1, Option.bind_eq_bind, Option.bind_some] at h
      split at h
      · split at h
        · cases h2 : seqSem rest { c with vars := fieldVars names (fs.fields.map (·.ty)) ++ c.vars } exp with
          | none =>
            rw [hs] at h2
            simp [h2] at h
          | some z =>
            rw [hs] at h2
            simp only [h2, Option.bind_some, Option.some.injEq] at h
            subst h
            exact ⟨z.2, rfl⟩
        · cases h
      · cases h
  · cases h

theorem size_struct_need {o : BytesType} {sc : Scope} {st : Simplify.Struct} {i : Impl} {c : Ctx} {m : M}
    (ha : At c o sc (.struct st)) (hi : sizeStruct o st = some i)
    (h : seqSem (denStmts i.body) c (some .usize) = some (.usize, m)) :
    (st.fields.fields.map (·.name)).Nodup ∧ (∀ f ∈ st.fields.fields, keywords.contains f.name = false) ∧
      (st.fields.kind = .unit → st.fields.fields = []) ∧ ∀ f ∈ st.fields.fields, refOk o sc.arity 0 (low sc f.ty) = true := by
  simp only [sizeStruct] at hi
  cases h1 : sizeFields o st.fields with
  | none => simp [h1] at hi
  | some es =>
    simp [h1] at hi
    subst hi
    have hself : c.self = .struct (Build.lowerFields sc.look sc.generics st.fields) := by rw [ha.self, ha.generics]; rfl
    simp only [sizeImpl, denStmts, denStmt] at h
    obtain ⟨hn, m', h2⟩ := unpack_need hself h
    obtain ⟨h3, h4, h5⟩ := names_need rfl hn
    refine ⟨h3, h4, h5, size_fields_need (c := c) ha.opts ha.scope h3 h5 h1 ?_⟩
    simp only [seqSem] at h2
    exact Acc.ofAdd h2

/-! ### Arms of enums -/

theorem findVariant_some : ∀ {vars : List Schema.Variant} {n : String} {i : Nat} {fs : Schema.Fields},
    findVariant n vars = some (i, fs) → ∃ v, vars[i]? = some v ∧ v.name = n ∧ v.fields = fs ∧
      ∀ j u, j < i → vars[j]? = some u → u.name ≠ n
  | [], _, _, _, h => nomatch h
  | v :: vs, n, i, fs, h => by
    simp only [findVariant] at h
    split at h
    · next hv =>
      injection h with h
      injection h with h1 h2
      subst h1 h2
      exact ⟨v, rfl, hv, rfl, fun j u hj => absurd hj (Nat.not_lt_zero _)⟩
    · next hv =>
      cases h1 : findVariant n vs with
      | none => simp [h1] at h
      | some y =>
        obtain ⟨k, gs⟩ := y
        simp only [h1, Option.map_some, Option.some.injEq, Prod.mk.injEq] at h
        obtain ⟨rfl, rfl⟩ := h
        obtain ⟨w, h2, h3, h4, h5⟩ := findVariant_some h1
        refine ⟨w, h2, h3, h4, ?_⟩
        intro j u hj hu
        cases j with
        | zero =>
          simp only [List.getElem?_cons_zero, Option.some.injEq] at hu
          subst hu
          exact hv
        | succ j => exact h5 j u (by omega) hu

/-- One arm for each variant. -/
theorem enumArms_need {c : Ctx} {vars : List Schema.Variant} {exp : Option RType} : ∀ {arms : List (Pat × Elab)}
    {y : RType × List Nat × (Nat → List Schema.Val → M)}, enumArms c vars exp arms = some y →
    (∀ i ∈ y.2.1, ∃ n kind names e fs, (Pat.variant n kind names, e) ∈ arms ∧ findVariant n vars = some (i, fs)) ∧
    ∀ n kind names e, (Pat.variant n kind names, e) ∈ arms → ∃ i fs x, findVariant n vars = some (i, fs) ∧
      namesOk kind fs names = true ∧ keywords.contains n = false ∧
      e { c with vars := fieldVars names (fs.fields.map (·.ty)) ++ c.vars } exp = some x
  | [], y, h => by
    simp only [enumArms, Option.some.injEq] at h
    subst h
    exact ⟨fun i hi => (nomatch hi), fun _ _ _ _ hm => (nomatch hm)⟩
  | (p, e) :: rest, y, h => by
    cases p with
    | variant n kind names =>
      simp only [enumArms] at h
      cases h1 : findVariant n vars with
      | none => simp [h1] at h
      | some z =>
        obtain ⟨i, fs⟩ := z
        simp only [h1, Option.bind_eq_bind, Option.bind_some] at h
        split at h
        · next hk =>
          cases h2 : e { c with vars := fieldVars names (fs.fields.map (·.ty)) ++ c.vars } exp with
          | none => simp [h2] at h
          | some x =>
            cases h3 : enumArms c vars exp rest with
            | none => simp [h2, h3] at h
            | some y' =>
              obtain ⟨t', is, ms⟩ := y'
              simp only [h2, h3, Option.bind_some] at h
              cases h4 : joinTy c.opts x.1 t' with
              | none => simp [h4] at h
              | some u =>
                simp only [h4, Option.bind_some, Option.some.injEq] at h
                subst h
                obtain ⟨h5, h6⟩ := enumArms_need h3
                simp only [Bool.and_eq_true, Bool.not_eq_true'] at hk
                constructor
                · intro j hj
                  rcases List.mem_cons.1 hj with rfl | hj
                  · exact ⟨n, kind, names, e, fs, List.mem_cons_self, h1⟩
                  · obtain ⟨n', k', nm', e', fs', hm, hf⟩ := h5 j hj
                    exact ⟨n', k', nm', e', fs', List.mem_cons_of_mem _ hm, hf⟩
                · intro n' k' nm' e' hm
                  rcases List.mem_cons.1 hm with heq | hm
                  · injection heq with h7 h8
                    injection h7 with h7 h9 h10
                    subst h7 h8 h9 h10
                    exact ⟨i, fs, x, h1, hk.1, hk.2, h2⟩
                  · exact h6 n' k' nm' e' hm
        · cases h
    | _ => simp [enumArms] at h

theorem denArms_mem {p : Pat} {e : Expr} : ∀ {arms : List Arm}, Arm.mk p e ∈ arms → (p, (den e).plain) ∈ denArms arms
  | .mk q f :: rest, h => by
    rw [denArms]
    rcases List.mem_cons.1 h with heq | h
    · injection heq with h1 h2
      subst h1 h2
      exact List.mem_cons_self
    · exact List.mem_cons_of_mem _ (denArms_mem h)

theorem denArms_of_mem {x : Pat × Elab} : ∀ {arms : List Arm}, x ∈ denArms arms → ∃ p e, Arm.mk p e ∈ arms ∧ x = (p, (den e).plain)
  | .mk q f :: rest, h => by
    rw [denArms] at h
    rcases List.mem_cons.1 h with rfl | h
    · exact ⟨q, f, List.mem_cons_self, rfl⟩
    · obtain ⟨p, e, hm, hx⟩ := denArms_of_mem h
      exact ⟨p, e, List.mem_cons_of_mem _ hm, hx⟩

/-- What a `match` on an enum requires. -/
theorem match_need {c : Ctx} {vars : List Schema.Variant} {arms : List Arm} {exp : Option RType} {t : Ty} {b : Bool}
    (hself : c.self = .enum vars) (hv : c.find "self" = some (.ref (.own t), b)) (ht : ∃ n as, t = .ext n as)
    {x : RType × M} (h : (den (.match (.var "self") arms)).plain c exp = some x) :
    arms ≠ [] ∧ ∃ y, enumArms c vars exp (denArms arms) = some y ∧ ∀ i < vars.length, i ∈ y.2.1 := by
  obtain ⟨n, as, rfl⟩ := ht
  have h1 : (den (.var "self")).plain c none = some (.ref (.own (.ext n as)), lookM "self") := by
    simp only [den, Arg.expr, varSem, hv]
    rfl
  rw [den, Arg.expr] at h
  simp only [matchSem, h1, hself, Option.bind_eq_bind, Option.bind_some] at h
  cases h2 : enumArms c vars exp (denArms arms) with
  | none => simp [h2] at h
  | some y =>
    simp only [h2, Option.bind_some] at h
    split at h
    · next hc =>
      refine ⟨?_, y, rfl, ?_⟩
      · rintro rfl
        simp [denArms] at hc
      · intro i hi
        have := List.all_eq_true.1 hc.2.2 i (List.mem_range.2 hi)
        simpa using this
    · cases h

/-- Names of variants that are all found are different. -/
theorem found_nodup {vars : List Schema.Variant} (h : ∀ i < vars.length, ∃ n fs, findVariant n vars = some (i, fs)) :
    (vars.map (·.name)).Nodup := by
  rw [List.Nodup, List.pairwise_iff_getElem]
  intro i j _ hj hij he
  rw [List.length_map] at hj
  obtain ⟨n, fs, hf⟩ := h j hj
  obtain ⟨v, h1, h2, _, h4⟩ := findVariant_some hf
  have hi : vars[i]? = some (vars[i]'(by omega)) := List.getElem?_eq_getElem (by omega)
  refine h4 i _ hij hi ?_
  rw [List.getElem_map, List.getElem_map] at he
  rw [he]
  rw [List.getElem?_eq_getElem hj, Option.some.injEq] at h1
  rw [h1, h2]

theorem size_enum_need {o : BytesType} {sc : Scope} {e : Simplify.Enum} {i : Impl} {c : Ctx} {m : M}
    (ha : At c o sc (.enum e)) (hi : sizeEnum o e = some i)
    (h : seqSem (denStmts i.body) c (some .usize) = some (.usize, m)) :
    e.variants ≠ [] ∧ (e.variants.map (·.name)).Nodup ∧ ∀ v ∈ e.variants, keywords.contains v.name = false ∧
      (v.fields.fields.map (·.name)).Nodup ∧ (∀ f ∈ v.fields.fields, keywords.contains f.name = false) ∧
      (v.fields.kind = .unit → v.fields.fields = []) ∧ ∀ f ∈ v.fields.fields, refOk o sc.arity 0 (low sc f.ty) = true := by
  simp only [sizeEnum] at hi
  cases h1 : all (e.variants.map (sizeVariant o)) with
  | none => simp [h1] at hi
  | some arms =>
    simp [h1] at hi
    subst hi
    have hgen : sc.generics = e.generics := ha.generics
    have hself : c.self = .enum (e.variants.map (lowVariant sc)) := by
      rw [ha.self]
      simp only [Build.lowerItem, ← hgen]
      rfl
    obtain ⟨t, b, n, as, ht, hf, _⟩ := ha.var
    simp only [sizeImpl, denStmts, denStmt, seqSem] at h
    obtain ⟨hne, y, h2, h3⟩ := match_need hself hf ⟨n, as, ht⟩ h
    obtain ⟨h4, h5⟩ := enumArms_need h2
    have hnd : (e.variants.map (·.name)).Nodup := by
      have := found_nodup (vars := e.variants.map (lowVariant sc)) fun i hi => by
        obtain ⟨n, _, _, _, fs, _, hf⟩ := h4 i (h3 i hi)
        exact ⟨n, fs, hf⟩
      rw [List.map_map] at this
      exact this
    refine ⟨?_, hnd, ?_⟩
    · intro hv
      rw [hv] at h1
      simp only [List.map_nil, all, Option.some.injEq] at h1
      exact hne h1.symm
    · intro v hv
      obtain ⟨arm, hm, h6⟩ := all_some h1 v hv
      simp only [sizeVariant] at h6
      cases h7 : sizeFields o v.fields with
      | none => simp [h7] at h6
      | some es =>
        simp only [h7, Option.bind_eq_bind, Option.bind_some, Option.pure_def, Option.some.injEq] at h6
        subst h6
        obtain ⟨i, fs, x, h8, h9, h10, h11⟩ := h5 _ _ _ _ (denArms_mem hm)
        obtain ⟨j, hj⟩ := List.getElem?_of_mem hv
        have hg := findVariant_get (vars := e.variants.map (lowVariant sc)) (i := j) (v := lowVariant sc v)
          (by rw [List.map_map]; exact hnd) (by rw [List.getElem?_map, hj]; rfl)
        have hfs : fs = Build.lowerFields sc.look sc.generics v.fields := by
          have := h8.symm.trans hg
          simp only [Option.some.injEq, Prod.mk.injEq] at this
          exact this.2
        obtain ⟨h12, h13, h14⟩ := names_need hfs h9
        refine ⟨h10, h12, h13, h14, ?_⟩
        by_cases hk : v.fields.kind = .unit
        · rw [h14 hk]
          exact fun f hf => nomatch hf
        · refine size_fields_need (c := c) ha.opts ha.scope h12 h14 h7 ?_
          rw [if_neg hk] at h11
          have hadd : add (sizeVariantId v.id :: es) = .sum (sizeVariantId v.id :: es) := by
            simp only [sizeFields, hk, if_false] at h7
            cases h15 : all (v.fields.fields.map (sizeField o)) with
            | none => simp [h15] at h7
            | some es' =>
              simp [h15] at h7
              subst h7
              cases es' <;> rfl
          rw [hadd] at h11
          rw [den, Arg.expr] at h11
          simp only [blockSem, denStmts, denStmt, seqSem] at h11
          cases h16 : (den (.sum (sizeVariantId v.id :: es))).plain
              { c with vars := fieldVars (v.fields.fields.map (·.name)) (fs.fields.map (·.ty)) ++ c.vars } (some .usize) with
          | none => simp [h16] at h11
          | some z =>
            have := Acc.ofSum h16
            subst hfs
            exact fun e he => this e (List.mem_cons_of_mem _ he)

/-! ### The name `w` -/

theorem writer_need {c : Ctx} (h : (den w).writer c = some ()) : ∃ b, c.find "w" = some (.writer, b) := by
  simp only [w, den, Arg.writer, Arg.expr, varSem] at h
  cases h1 : c.find "w" with
  | none => simp [h1] at h
  | some y =>
    obtain ⟨t, b⟩ := y
    simp only [h1, Option.bind_eq_bind, Option.bind_some] at h
    cases t <;> simp_all

theorem no_writer {sc : Scope} {fs : Simplify.Fields} {c : Ctx} (hn : (fs.fields.map (·.name)).Nodup)
    (h : (den w).writer (inFields c sc fs) = some ()) : ∀ f ∈ fs.fields, f.name ≠ "w" := by
  intro f hf hw
  obtain ⟨b, hb⟩ := writer_need h
  obtain ⟨b', hv⟩ := hasFields_of (sc := sc) (c := inFields c sc fs) (rest := c.vars) hn
    (by simp only [inFields, fieldVars_eq]) f hf
  rw [hw, hb] at hv
  cases hv

theorem semis_need {c : Ctx} {exp : Option RType} : ∀ {ss : List StmtSem} {e : Elab} {x : RType × M},
    (∀ s ∈ ss, ∃ e, s = .semi e) → seqSem (ss ++ [.semi e]) c exp = some x → ∃ y, e c none = some y
  | [], e, x, _, h => by
    simp only [List.nil_append, seqSem] at h
    cases h1 : e c none with
    | none => simp [h1] at h
    | some y => exact ⟨y, rfl⟩
  | s :: ss, e, x, hs, h => by
    obtain ⟨e', rfl⟩ := hs s List.mem_cons_self
    simp only [List.cons_append, seqSem] at h
    cases h1 : e' c none with
    | none => simp [h1] at h
    | some y =>
      cases h2 : seqSem (ss ++ [.semi e]) c exp with
      | none => simp [h1, h2] at h
      | some z => exact semis_need (fun s hm => hs s (List.mem_cons_of_mem _ hm)) h2

theorem encodeField_semi {o : BytesType} {f : Simplify.Field} {s : Stmt} (h : encodeField o f = some s) : ∃ e, s = .semi e := by
  unfold encodeField at h
  split at h
  · next t _ =>
    cases h1 : encodeTy o true t (.var "v") with
    | none => simp [h1] at h
    | some x =>
      simp [h1] at h
      exact ⟨_, h.symm⟩
  · cases h1 : encodeTy o true f.ty (.var f.name) with
    | none => simp [h1] at h
    | some x =>
      simp [h1] at h
      exact ⟨_, h.symm⟩

theorem all_mem {α β : Type} {f : α → Option β} : ∀ {l : List α} {xs : List β}, all (l.map f) = some xs →
    ∀ x ∈ xs, ∃ a ∈ l, f a = some x
  | [], xs, h, x, hx => by
    simp only [List.map_nil, all, Option.some.injEq] at h
    subst h
    cases hx
  | b :: l, xs, h, x, hx => by
    simp only [List.map_cons, all] at h
    cases h1 : f b with
    | none => simp [h1] at h
    | some y =>
      cases h2 : all (l.map f) with
      | none => simp [h1, h2] at h
      | some ys =>
        simp only [h1, h2, Option.some.injEq] at h
        subst h
        rcases List.mem_cons.1 hx with rfl | hx
        · exact ⟨b, List.mem_cons_self, h1⟩
        · obtain ⟨a, ha, h3⟩ := all_mem h2 x hx
          exact ⟨a, List.mem_cons_of_mem _ ha, h3⟩

theorem denStmts_semis : ∀ {ss : List Stmt}, (∀ s ∈ ss, ∃ e, s = .semi e) → ∀ s ∈ denStmts ss, ∃ e, s = StmtSem.semi e
  | [], _, _, h => nomatch h
  | s :: ss, hs, x, hx => by
    rw [denStmts] at hx
    rcases List.mem_cons.1 hx with rfl | hx
    · obtain ⟨e, rfl⟩ := hs s List.mem_cons_self
      exact ⟨_, rfl⟩
    · exact denStmts_semis (fun s hm => hs s (List.mem_cons_of_mem _ hm)) x hx

theorem encode_fields_need {o : BytesType} {sc : Scope} {fs : Simplify.Fields} {c : Ctx} {ss pre : List Stmt} {x : RType × M}
    {exp : Option RType} (hn : (fs.fields.map (·.name)).Nodup) (hu : fs.kind = .unit → fs.fields = [])
    (hp : ∀ s ∈ pre, ∃ e, s = .semi e)
    (he : encodeFields o fs = some ss) (h : seqSem (denStmts (pre ++ ss)) (inFields c sc fs) exp = some x) :
    ∀ f ∈ fs.fields, f.name ≠ "w" := by
  intro f hf
  have hk : fs.kind ≠ .unit := fun h => by
    rw [hu h] at hf
    cases hf
  simp only [encodeFields, hk, if_false] at he
  cases h1 : all (fs.fields.map (encodeField o)) with
  | none => simp [h1] at he
  | some ss' =>
    simp [h1] at he
    subst he
    rw [← List.append_assoc, denStmts_append] at h
    simp only [denStmts, denStmt] at h
    obtain ⟨y, h2⟩ := semis_need (denStmts_semis fun s hs => by
      rcases List.mem_append.1 hs with hs | hs
      · exact hp s hs
      · obtain ⟨f, _, hf⟩ := all_mem h1 s hs
        exact encodeField_semi hf) h
    simp only [den, Arg.expr, denList, callSem] at h2
    cases h3 : (den w).writer (inFields c sc fs) with
    | none => simp [h3] at h2
    | some u => exact no_writer hn h3 f hf

theorem encode_struct_need {o : BytesType} {sc : Scope} {st : Simplify.Struct} {i : Impl} {c : Ctx} {x : RType × M}
    {exp : Option RType} (ha : At c o sc (.struct st)) (hn : (st.fields.fields.map (·.name)).Nodup)
    (hu : st.fields.kind = .unit → st.fields.fields = []) (hi : encodeStruct o st = some i)
    (h : seqSem (denStmts i.body) c exp = some x) : ∀ f ∈ st.fields.fields, f.name ≠ "w" := by
  simp only [encodeStruct] at hi
  cases h1 : encodeFields o st.fields with
  | none => simp [h1] at hi
  | some ss =>
    simp [h1] at hi
    subst hi
    have hself : c.self = .struct (Build.lowerFields sc.look sc.generics st.fields) := by rw [ha.self, ha.generics]; rfl
    simp only [encodeImpl, denStmts, denStmt] at h
    obtain ⟨_, m', h2⟩ := unpack_need hself h
    exact encode_fields_need (pre := []) (c := c) (sc := sc) hn hu (fun s hs => nomatch hs) h1 h2

theorem encode_enum_need {o : BytesType} {sc : Scope} {e : Simplify.Enum} {i : Impl} {c : Ctx} {x : RType × M}
    {exp : Option RType} (ha : At c o sc (.enum e)) (hnd : (e.variants.map (·.name)).Nodup)
    (hf : ∀ v ∈ e.variants, (v.fields.fields.map (·.name)).Nodup ∧ (v.fields.kind = .unit → v.fields.fields = []))
    (hi : encodeEnum o e = some i) (h : seqSem (denStmts i.body) c exp = some x) :
    ∀ v ∈ e.variants, ∀ f ∈ v.fields.fields, f.name ≠ "w" := by
  simp only [encodeEnum] at hi
  cases h1 : all (e.variants.map (encodeVariant o)) with
  | none => simp [h1] at hi
  | some arms =>
    simp [h1] at hi
    subst hi
    have hgen : sc.generics = e.generics := ha.generics
    have hself : c.self = .enum (e.variants.map (lowVariant sc)) := by
      rw [ha.self]
      simp only [Build.lowerItem, ← hgen]
      rfl
    obtain ⟨t, b, n, as, ht, hv, _⟩ := ha.var
    simp only [encodeImpl, denStmts, denStmt, seqSem] at h
    obtain ⟨_, y, h2, _⟩ := match_need hself hv ⟨n, as, ht⟩ h
    obtain ⟨_, h5⟩ := enumArms_need h2
    intro v hv
    obtain ⟨arm, hm, h6⟩ := all_some h1 v hv
    simp only [encodeVariant] at h6
    cases h7 : encodeFields o v.fields with
    | none => simp [h7] at h6
    | some ss =>
      simp only [h7, Option.bind_eq_bind, Option.bind_some, Option.pure_def, Option.some.injEq] at h6
      subst h6
      obtain ⟨i, fs, x, h8, h9, h10, h11⟩ := h5 _ _ _ _ (denArms_mem hm)
      obtain ⟨j, hj⟩ := List.getElem?_of_mem hv
      have hg := findVariant_get (vars := e.variants.map (lowVariant sc)) (i := j) (v := lowVariant sc v)
        (by rw [List.map_map]; exact hnd) (by rw [List.getElem?_map, hj]; rfl)
      have hfs : fs = Build.lowerFields sc.look sc.generics v.fields := by
        have := h8.symm.trans hg
        simp only [Option.some.injEq, Prod.mk.injEq] at this
        exact this.2
      subst hfs
      rw [den, Arg.expr] at h11
      simp only [blockSem] at h11
      cases h12 : seqSem (denStmts (.semi (.call .encVariantId [w, .call .variantId [.lit v.id.toNat]]) :: ss))
          (inFields c sc v.fields) exp with
      | none =>
        simp only [inFields] at h12
        simp [h12] at h11
      | some z =>
        exact encode_fields_need (pre := [.semi (.call .encVariantId [w, .call .variantId [.lit v.id.toNat]])]) (c := c) (sc := sc)
          (hf v hv).1 (hf v hv).2 (fun s hs => ⟨_, List.mem_singleton.1 hs⟩) h7 h12

/-! ### Decoders -/

theorem typed_need {c : Ctx} {ty : Typed} {t : Ty} (h : typed c ty = some t) :
    t = low c.scope ty.of ∧ readTy c.scope ty.text = some (rustOf c.opts (low c.scope ty.of)) := by
  simp only [typed] at h
  split at h
  · next hr =>
    injection h with h
    exact ⟨h.symm, hr⟩
  · cases h

/-- A variable for a field. -/
theorem slot_need {o : BytesType} {sc : Scope} {f : Simplify.Field} {s : Stmt} (h : fieldVar o f = some s) :
    ∃ ty, s = .slot f.name ty .none ∧ ∀ c, c.opts = o → c.scope = sc → ∀ t, typed c ty = some t →
      t = .option (low sc (Rust.fieldTy f.ty)) ∧ nameFree sc "Option" = true ∧ textOk o sc f.ty = true := by
  unfold fieldVar at h
  cases h1 : tyText o f.ty with
  | none => simp [h1] at h
  | some text =>
    simp only [h1, Option.bind_eq_bind, Option.bind_some] at h
    split at h
    · next t ho =>
      simp only [Option.pure_def, Option.some.injEq] at h
      refine ⟨⟨text, .option t⟩, h.symm, ?_⟩
      rintro c rfl rfl u hu
      obtain ⟨h2, h3⟩ := typed_need hu
      rw [ho] at h1 ⊢
      have h4 := text_need c.opts _ text h1 h3
      refine ⟨h2, ?_, h4⟩
      rw [textOk, Bool.and_eq_true] at h4
      exact h4.1
    · next ho =>
      simp only [Option.pure_def, Option.some.injEq] at h
      refine ⟨⟨.path false ["Option"] [text], .option f.ty⟩, h.symm, ?_⟩
      rintro c rfl rfl u hu
      obtain ⟨h2, h3⟩ := typed_need hu
      have hty : Rust.fieldTy f.ty = f.ty := by
        cases hf : f.ty with
        | option t => exact absurd hf (ho t)
        | _ => rfl
      rw [hty]
      simp only [low, Build.lowerTy, rustOf] at h3
      exact ⟨h2, (read_option h3).1, text_need c.opts _ text h1 (read_option h3).2⟩

theorem none_need {c : Ctx} {t : RType} {m : M} (h : Elab.check (den .none).plain c t = some m) :
    c.scope.values "None" = false := by
  obtain ⟨u, h1, _⟩ := check_some h
  rw [den, Arg.expr] at h1
  simp only [noneSem] at h1
  split at h1
  · cases h1
  · next hv => simpa using hv

theorem slots_need {o : BytesType} {sc : Scope} : ∀ {fs : List Simplify.Field} {ss : List Stmt}
    {rest : List Stmt} {c : Ctx} {exp : Option RType} {x : RType × M}, all (fs.map (fieldVar o)) = some ss →
    c.opts = o → c.scope = sc → seqSem (denStmts (ss ++ rest)) c exp = some x →
    (∀ f ∈ fs, nameFree sc "Option" = true ∧ sc.values "None" = false ∧ textOk o sc f.ty = true) ∧ ∃ y, seqSem (denStmts rest) (inSlots c sc fs) exp = some y
  | [], ss, rest, c, exp, x, ha, _, _, h => by
    simp only [List.map_nil, all, Option.some.injEq] at ha
    subst ha
    exact ⟨fun f hf => (nomatch hf), x, h⟩
  | f :: fs, ss, rest, c, exp, x, ha, hc, hs, h => by
    simp only [List.map_cons, all] at ha
    cases h1 : fieldVar o f with
    | none => simp [h1] at ha
    | some s =>
      cases h2 : all (fs.map (fieldVar o)) with
      | none => simp [h1, h2] at ha
      | some ss' =>
        simp only [h1, h2, Option.some.injEq] at ha
        subst ha
        obtain ⟨ty, rfl, h3⟩ := slot_need (sc := sc) h1
        simp only [List.cons_append, denStmts, denStmt, seqSem] at h
        cases h4 : typed c ty with
        | none => simp [h4] at h
        | some t =>
          obtain ⟨rfl, h5⟩ := h3 c hc hs t h4
          simp only [h4, Option.bind_eq_bind, Option.bind_some] at h
          cases h6 : Elab.check (den .none).plain c (.own (.option (low sc (Rust.fieldTy f.ty)))) with
          | none => simp [h6] at h
          | some m =>
            cases h7 : seqSem (denStmts (ss' ++ rest)) (c.push f.name (.own (.option (low sc (Rust.fieldTy f.ty)))) true) exp with
            | none => simp [h6, h7] at h
            | some z =>
              obtain ⟨h8, h9⟩ := slots_need (sc := sc) h2 (by exact hc) (by exact hs) h7
              refine ⟨fun g hg => ?_, ?_⟩
              · rcases List.mem_cons.1 hg with rfl | hg
                · exact ⟨h5.1, hs ▸ none_need h6, h5.2⟩
                · exact h8 g hg
              · rw [inSlots_cons]
                exact h9

/-- All arms for numbers. -/
theorem numArms_need {c : Ctx} {exp : Option RType} {k : Nat} {e : Elab} : ∀ {pre : List (Pat × Elab)}
    {rest : List (Pat × Elab)} {x : RType × (Nat → M)}, (∀ p ∈ pre, ∃ n e, p = (Pat.lit n, e) ∨ p = (.const .endMarker, e)) →
    numArms c exp (pre ++ (.lit k, e) :: rest) = some x → ∃ y, e c exp = some y
  | [], rest, x, _, h => by
    simp only [List.nil_append, numArms] at h
    cases h1 : e c exp with
    | none => simp [h1] at h
    | some y => exact ⟨y, rfl⟩
  | p :: pre, rest, x, hp, h => by
    obtain ⟨n, e', hp' | hp'⟩ := hp p List.mem_cons_self
    · subst hp'
      simp only [List.cons_append, numArms] at h
      cases h1 : e' c exp with
      | none => simp [h1] at h
      | some y =>
        cases h2 : numArms c exp (pre ++ (.lit k, e) :: rest) with
        | none => simp [h1, h2] at h
        | some z => exact numArms_need (fun q hq => hp q (List.mem_cons_of_mem _ hq)) h2
    · subst hp'
      simp only [List.cons_append, numArms] at h
      cases h1 : e' c exp with
      | none => simp [h1] at h
      | some y =>
        cases h2 : numArms c exp (pre ++ (.lit k, e) :: rest) with
        | none => simp [h1, h2] at h
        | some z => exact numArms_need (fun q hq => hp q (List.mem_cons_of_mem _ hq)) h2

theorem numArms_mem {c : Ctx} {exp : Option RType} {pre arms rest : List (Pat × Elab)} {x : RType × (Nat → M)} {k : Nat}
    {e : Elab} (hp : ∀ p ∈ pre, ∃ n e, p = (Pat.lit n, e) ∨ p = (.const .endMarker, e))
    (ha : ∀ p ∈ arms, ∃ n e, p = (Pat.lit n, e)) (h : numArms c exp (pre ++ arms ++ rest) = some x)
    (hm : (Pat.lit k, e) ∈ arms) : ∃ y, e c exp = some y := by
  obtain ⟨l1, l2, rfl⟩ := List.append_of_mem hm
  refine numArms_need (c := c) (exp := exp) (k := k) (pre := pre ++ l1) (rest := l2 ++ rest) (fun p hq => ?_) (x := x) ?_
  · rcases List.mem_append.1 hq with hq | hq
    · exact hp p hq
    · obtain ⟨n, e, h⟩ := ha p (List.mem_append_left _ hq)
      exact ⟨n, e, .inl h⟩
  · rw [← h]
    simp only [List.append_assoc, List.cons_append]

theorem reader_need {c : Ctx} (h : (den r).reader c = some ()) : ∃ b, c.find "r" = some (.reader, b) := by
  simp only [r, den, Arg.reader, Arg.expr, varSem] at h
  cases h1 : c.find "r" with
  | none => simp [h1] at h
  | some y =>
    obtain ⟨t, b⟩ := y
    simp only [h1, Option.bind_eq_bind, Option.bind_some] at h
    cases t <;> simp_all

/-- The statement `x = Some(e?)`. -/
theorem assign_need {c : Ctx} {x : String} {e : Expr} {exp : Option RType} {T : Ty} {b : Bool} {y : RType × M}
    (hf : c.find x = some (.own (.option T), b))
    (h : (den (.assign x (.wrap .some (.try e)))).plain c exp = some y) :
    c.scope.values "Some" = false ∧ ∃ z, (den e).plain c (some (.result (.own T))) = some z := by
  rw [den, Arg.expr] at h
  simp only [assignSem, hf, Option.bind_eq_bind, Option.bind_some] at h
  split at h
  · cases h1 : Elab.check (den (.wrap .some (.try e))).plain c (.own (.option T)) with
    | none => simp [h1] at h
    | some m =>
      obtain ⟨u, h2, _⟩ := check_some h1
      rw [den, Arg.expr] at h2
      simp only [wrapSem] at h2
      split at h2
      · cases h2
      · next hv =>
        refine ⟨by simpa using hv, ?_⟩
        simp only [expSome] at h2
        cases h3 : (den (.try e)).plain c (some (.own T)) with
        | none => simp [h3] at h2
        | some z =>
          rw [den, Arg.expr] at h3
          exact try_need h3
  · cases h

theorem decOk_field {o : BytesType} {sc : Scope} {t : Simplify.Ty}
    (h : decOk o sc.arity (low sc (Rust.fieldTy t)) = true) : decOk o sc.arity (low sc t) = true := by
  cases t <;> first | exact h | (simp only [low, Build.lowerTy, decOk]; exact h)

theorem member_value_push (c : Ctx) :
    ∃ mm, (den (.member (.var "id") .value)).plain (Ctx.push c "id" .fieldId false) none = some (.u32, mm) := by
  have h : ∃ m, varSem "id" (Ctx.push c "id" .fieldId false) none = some (.fieldId, m) := by
    simp only [varSem, Ctx.find, Ctx.push, lookup_head, Option.bind_eq_bind, Option.bind_some]
    exact ⟨_, rfl⟩
  obtain ⟨m, h⟩ := h
  rw [den, Arg.expr, den, Arg.expr]
  simp only [memberSem, h, Option.bind_eq_bind, Option.bind_some]
  exact ⟨_, rfl⟩

theorem decode_fields_need {o : BytesType} {sc : Scope} {fs : Simplify.Fields} {variant : Option String} {ss : List Stmt} {c : Ctx}
    {exp : Option RType} {x : RType × M} (hc : c.opts = o) (hs : c.scope = sc) (hn : (fs.fields.map (·.name)).Nodup)
    (hu : fs.kind = .unit → fs.fields = []) (hd : decodeFields o variant fs = some ss)
    (h : seqSem (denStmts ss) c exp = some x) :
    ∀ f ∈ fs.fields, f.name ≠ "r" ∧ f.name ≠ "id" ∧ fieldText o sc f.ty = true ∧ decOk o sc.arity (low sc f.ty) = true := by
  intro f hf
  have hk : fs.kind ≠ .unit := fun h => by
    rw [hu h] at hf
    cases hf
  simp only [decodeFields] at hd
  cases h1 : all (fs.fields.map (fieldVar o)) with
  | none => simp [h1] at hd
  | some vars =>
    cases h2 : all (fs.fields.map (fieldArm o)) with
    | none => simp [h1, h2] at hd
    | some arms =>
      simp only [h1, h2, hk, if_false, Option.bind_eq_bind, Option.bind_some, Option.pure_def, Option.some.injEq] at hd
      subst hd
      obtain ⟨h3, y, h4⟩ := slots_need h1 hc hs h
      simp only [denStmts, denStmt, seqSem] at h4
      cases h5 : Elab.check (den (.loop (loopBody arms))).plain (inSlots c sc fs.fields) .unit with
      | none =>
        simp only [loopBody, List.cons_append] at h5
        simp [h5] at h4
      | some ml =>
        obtain ⟨ul, h6, _⟩ := check_some h5
        rw [den, Arg.expr] at h6
        simp only [loopSem] at h6
        cases h7 : seqSem (denStmts (loopBody arms)) { inSlots c sc fs.fields with inLoop := true } (some .unit) with
        | none => simp [h7] at h6
        | some z =>
          simp only [loopBody, denStmts, denStmt, seqSem] at h7
          have hlook := slotTys_find (sc := sc) hn hf
          have hfind : Ctx.find { inSlots c sc fs.fields with inLoop := true } f.name =
              some (.own (.option (low sc (Rust.fieldTy f.ty))), true) := by
            simp only [Ctx.find, inSlots, List.lookup_append, hlook, Option.some_or]
          cases h8 : (den (.try (.call .decId [r]))).plain { inSlots c sc fs.fields with inLoop := true } none with
          | none => simp [h8] at h7
          | some z' =>
            have h8' := h8
            rw [den, Arg.expr] at h8'
            simp only [trySem] at h8'
            cases h9 : (den (.call .decId [r])).plain { inSlots c sc fs.fields with inLoop := true } none with
            | none => simp [h9] at h8'
            | some z2 =>
              rw [den, Arg.expr] at h9
              simp only [denList, callSem] at h9
              cases h10 : (den r).reader { inSlots c sc fs.fields with inLoop := true } with
              | none => simp [h10] at h9
              | some _ =>
                have hr : f.name ≠ "r" := by
                  intro e
                  obtain ⟨b, hb⟩ := reader_need h10
                  rw [e] at hfind
                  rw [hb] at hfind
                  cases hfind
                have hz : z'.1 = .fieldId := by
                  simp only [h10, Option.bind_eq_bind, Option.bind_some, Option.some.injEq] at h9
                  subst h9
                  simp only [Option.map_none] at h8'
                  rw [den, Arg.expr] at h8'
                  simp only [denList, callSem, h10, Option.bind_eq_bind, Option.bind_some] at h8'
                  cases hret : (inSlots c sc fs.fields).ret with
                  | result t =>
                    simp only [hret, Option.some.injEq] at h8'
                    rw [← h8']
                  | _ => simp [hret] at h8'
                obtain ⟨tz, mz⟩ := z'
                have hz : tz = .fieldId := hz
                subst hz
                simp only [h8, Option.bind_eq_bind, Option.bind_some] at h7
                -- the match
                have key : ∃ z, (den (.match (.member (.var "id") .value)
                    (.mk (.const .endMarker) .break :: arms ++
                      [.mk .wild (.try (.call .decSkip [r, .member (.var "id") .encoding]))]))).plain
                    (Ctx.push { inSlots c sc fs.fields with inLoop := true } "id" .fieldId false) (some .unit) = some z := by
                  cases hm : (den (.match (.member (.var "id") .value)
                    (.mk (.const .endMarker) .break :: arms ++
                      [.mk .wild (.try (.call .decSkip [r, .member (.var "id") .encoding]))]))).plain
                    (Ctx.push { inSlots c sc fs.fields with inLoop := true } "id" .fieldId false) (some .unit) with
                  | none =>
                    simp only [List.cons_append] at hm
                    simp [hm] at h7
                  | some z => exact ⟨z, rfl⟩
                obtain ⟨zm, hm⟩ := key
                rw [den, Arg.expr] at hm
                have hmem : ∃ mm, (den (.member (.var "id") .value)).plain
                    (Ctx.push { inSlots c sc fs.fields with inLoop := true } "id" .fieldId false) none = some (.u32, mm) := by
                  exact member_value_push _
                obtain ⟨mm, hmem⟩ := hmem
                simp only [matchSem, hmem, RType.u32, Option.bind_eq_bind, Option.bind_some] at hm
                cases hna : numArms (Ctx.push { inSlots c sc fs.fields with inLoop := true } "id" .fieldId false) (some .unit)
                    (denArms (.mk (.const .endMarker) .break :: arms ++
                      [.mk .wild (.try (.call .decSkip [r, .member (.var "id") .encoding]))])) with
                | none =>
                  simp only [List.cons_append] at hna
                  simp [hna] at hm
                | some w =>
                  obtain ⟨arm, ham, hfa⟩ := all_some h2 f hf
                  simp only [fieldArm] at hfa
                  cases hdt : decodeTy o true (Rust.fieldTy f.ty) with
                  | none => simp [hdt] at hfa
                  | some e =>
                    simp [hdt] at hfa
                    subst hfa
                    rw [denArms_append] at hna
                    simp only [denArms] at hna
                    have hx := numArms_mem (pre := [(Pat.const .endMarker, (den .break).plain)]) (arms := denArms arms)
                      (fun p hp => ⟨0, _, .inr (List.mem_singleton.1 hp)⟩) (fun p hp => by
                        obtain ⟨q, e', hq, rfl⟩ := denArms_of_mem hp
                        obtain ⟨g, _, hg⟩ := all_mem h2 _ hq
                        simp only [fieldArm] at hg
                        cases hdg : decodeTy o true (Rust.fieldTy g.ty) with
                        | none => simp [hdg] at hg
                        | some eg =>
                          simp [hdg] at hg
                          obtain ⟨rfl, rfl⟩ := hg
                          exact ⟨_, _, rfl⟩) hna (denArms_mem ham)
                    obtain ⟨ya, hya⟩ := hx
                    have hid : f.name ≠ "id" := by
                      intro e
                      rw [den, Arg.expr] at hya
                      simp only [assignSem, e, Ctx.find, Ctx.push, lookup_head, Option.bind_eq_bind, Option.bind_some,
                        Bool.false_eq_true, if_false] at hya
                      cases hya
                    have hfind2 : Ctx.find (Ctx.push { inSlots c sc fs.fields with inLoop := true } "id" .fieldId false) f.name =
                        some (.own (.option (low sc (Rust.fieldTy f.ty))), true) := by
                      rw [Ctx.find, Ctx.push, lookup_past hid]
                      exact hfind
                    obtain ⟨hsome, zz, hzz⟩ := assign_need hfind2 hya
                    obtain ⟨hopt, hnone, htext⟩ := h3 f hf
                    have hsome : sc.values "Some" = false := hs ▸ hsome
                    exact ⟨hr, hid, fieldText_iff.2 ⟨slotFree_iff.2 ⟨hopt, hnone, hsome⟩, htext⟩, decOk_field (decode_need o sc _ true _ e zz (by exact hc) (by exact hs) hdt hzz)⟩

theorem decode_struct_need {o : BytesType} {sc : Scope} {st : Simplify.Struct} {i : Impl} {c : Ctx} {exp : Option RType}
    {x : RType × M} (hc : c.opts = o) (hs : c.scope = sc) (hn : (st.fields.fields.map (·.name)).Nodup)
    (hu : st.fields.kind = .unit → st.fields.fields = []) (hi : decodeStruct o st = some i)
    (h : seqSem (denStmts i.body) c exp = some x) : ∀ f ∈ st.fields.fields,
      f.name ≠ "r" ∧ f.name ≠ "id" ∧ fieldText o sc f.ty = true ∧ decOk o sc.arity (low sc f.ty) = true := by
  simp only [decodeStruct] at hi
  cases h1 : decodeFields o none st.fields with
  | none => simp [h1] at hi
  | some ss =>
    simp [h1] at hi
    subst hi
    exact decode_fields_need hc hs hn hu h1 h

theorem wrapOk_need {c : Ctx} {e : Expr} {exp : Option RType} {x : RType × M}
    (h : (den (.wrap .ok e)).plain c exp = some x) : c.scope.values "Ok" = false := by
  rw [den, Arg.expr] at h
  simp only [wrapSem, okSem] at h
  split at h
  · cases h
  · next hv => simpa using hv

theorem err_need {c : Ctx} {e : Expr} {exp : Option RType} {x : RType × M}
    (h : (den (.wrap .err e)).plain c exp = some x) : c.scope.values "Err" = false := by
  rw [den, Arg.expr] at h
  simp only [wrapSem] at h
  split at h
  · cases h
  · next hv => simpa using hv

/-- Every body ends with an `Ok`. -/
theorem decode_fields_ok {o : BytesType} {sc : Scope} {fs : Simplify.Fields} {variant : Option String} {ss : List Stmt} {c : Ctx}
    {exp : Option RType} {x : RType × M} (hc : c.opts = o) (hs : c.scope = sc) (hd : decodeFields o variant fs = some ss)
    (h : seqSem (denStmts ss) c exp = some x) : sc.values "Ok" = false := by
  simp only [decodeFields] at hd
  cases h1 : all (fs.fields.map (fieldVar o)) with
  | none => simp [h1] at hd
  | some vars =>
    cases h2 : all (fs.fields.map (fieldArm o)) with
    | none => simp [h1, h2] at hd
    | some arms =>
      by_cases hk : fs.kind = .unit
      · simp only [h1, h2, hk, if_true, Option.bind_eq_bind, Option.bind_some, Option.pure_def, Option.some.injEq] at hd
        subst hd
        simp only [denStmts, denStmt, seqSem] at h
        exact hs ▸ wrapOk_need h
      · simp only [h1, h2, hk, if_false, Option.bind_eq_bind, Option.bind_some, Option.pure_def, Option.some.injEq] at hd
        subst hd
        obtain ⟨_, y, h4⟩ := slots_need h1 hc hs h
        simp only [denStmts, denStmt, seqSem] at h4
        cases h5 : (den (.wrap .ok (.build variant fs.kind (fs.fields.map (·.name)) (fs.fields.map (fieldAssign fs.kind))))).plain
            (inSlots c sc fs.fields) exp with
        | none => simp [h5] at h4
        | some z => 
          have : (inSlots c sc fs.fields).scope.values "Ok" = false := wrapOk_need h5
          exact hs ▸ this

/-- The arms of the `match` in the function `decode` of an enum. -/
theorem decode_enum_arms {o : BytesType} {e : Simplify.Enum} {i : Impl} {c : Ctx} {exp : Option RType}
    {x : RType × M} (hi : decodeEnum o e = some i) (h : seqSem (denStmts i.body) c exp = some x) :
    ∃ arms w, all (e.variants.map (decodeVariant o)) = some arms ∧
      numArms c exp (denArms arms ++ denArms [.mk (.bind "id") (.wrap .err (.unknown (.var "id")))]) = some w ∧
      ∀ p ∈ denArms arms, ∃ n e, p = (Pat.lit n, e) := by
  simp only [decodeEnum] at hi
  cases h1 : all (e.variants.map (decodeVariant o)) with
  | none => simp [h1] at hi
  | some arms =>
    simp [h1] at hi
    subst hi
    simp only [decodeImpl, denStmts, denStmt, seqSem] at h
    rw [den, Arg.expr] at h
    simp only [matchSem] at h
    cases h2 : (den (.member (.try (.call .decVariantId [r])) .value)).plain c none with
    | none => simp [h2] at h
    | some y =>
      obtain ⟨t, m⟩ := y
      have ht : t = .u32 := by
        rw [den, Arg.expr] at h2
        simp only [memberSem] at h2
        cases h3 : (den (.try (.call .decVariantId [r]))).plain c none with
        | none => simp [h3] at h2
        | some z =>
          obtain ⟨tz, mz⟩ := z
          simp only [h3, Option.bind_eq_bind, Option.bind_some] at h2
          split at h2
          · simp only [Option.some.injEq, Prod.mk.injEq] at h2
            exact h2.1.symm
          · next hne => cases hne
          · simp only [Option.some.injEq, Prod.mk.injEq] at h2
            exact h2.1.symm
          · cases h2
      subst ht
      simp only [h2, RType.u32, Option.bind_eq_bind, Option.bind_some] at h
      cases h3 : numArms c exp (denArms (arms ++ [.mk (.bind "id") (.wrap .err (.unknown (.var "id")))])) with
      | none => simp [h3] at h
      | some w =>
        rw [denArms_append] at h3
        refine ⟨arms, w, rfl, h3, fun p hp => ?_⟩
        obtain ⟨q, e', hq, rfl⟩ := denArms_of_mem hp
        obtain ⟨g, _, hg⟩ := all_mem h1 _ hq
        simp only [decodeVariant] at hg
        cases hdg : decodeFields o (some g.name) g.fields with
        | none => simp [hdg] at hg
        | some eg =>
          simp only [hdg, Option.bind_eq_bind, Option.bind_some, Option.pure_def, Option.some.injEq] at hg
          injection hg with hg _
          subst hg
          exact ⟨_, _, rfl⟩

theorem numArms_last {c : Ctx} {exp : Option RType} {e : Elab} {x : String} : ∀ {pre : List (Pat × Elab)}
    {w : RType × (Nat → M)}, (∀ p ∈ pre, ∃ n e, p = (Pat.lit n, e)) → numArms c exp (pre ++ [(.bind x, e)]) = some w →
    ∃ y, e (c.push x .u32 false) exp = some y
  | [], w, _, h => by
    simp only [List.nil_append, numArms] at h
    cases h1 : e (c.push x .u32 false) exp with
    | none => simp [h1] at h
    | some y => exact ⟨y, rfl⟩
  | p :: pre, w, hp, h => by
    obtain ⟨n, e', hp'⟩ := hp p List.mem_cons_self
    subst hp'
    simp only [List.cons_append, numArms] at h
    cases h1 : e' c exp with
    | none => simp [h1] at h
    | some y =>
      cases h2 : numArms c exp (pre ++ [(.bind x, e)]) with
      | none => simp [h1, h2] at h
      | some z => exact numArms_last (fun q hq => hp q (List.mem_cons_of_mem _ hq)) h2

theorem decode_enum_values {o : BytesType} {sc : Scope} {e : Simplify.Enum} {i : Impl} {c : Ctx} {exp : Option RType}
    {x : RType × M} (hc : c.opts = o) (hs : c.scope = sc) (hne : e.variants ≠ []) (hi : decodeEnum o e = some i)
    (h : seqSem (denStmts i.body) c exp = some x) : sc.values "Ok" = false ∧ sc.values "Err" = false := by
  obtain ⟨arms, w, h1, h3, hl⟩ := decode_enum_arms hi h
  constructor
  · obtain ⟨v, vs, hvs⟩ := List.exists_cons_of_ne_nil hne
    have hv : v ∈ e.variants := by rw [hvs]; exact List.mem_cons_self
    obtain ⟨arm, ham, hda⟩ := all_some h1 v hv
    simp only [decodeVariant] at hda
    cases h4 : decodeFields o (some v.name) v.fields with
    | none => simp [h4] at hda
    | some body =>
      simp only [h4, Option.bind_eq_bind, Option.bind_some, Option.pure_def, Option.some.injEq] at hda
      subst hda
      obtain ⟨ya, hya⟩ := numArms_mem (pre := []) (arms := denArms arms) (fun p hp => nomatch hp) hl h3 (denArms_mem ham)
      by_cases hk : v.fields.kind = .unit
      · rw [if_pos hk] at hya
        exact hs ▸ wrapOk_need hya
      · rw [if_neg hk, den, Arg.expr] at hya
        simp only [blockSem] at hya
        cases h5 : seqSem (denStmts body) c exp with
        | none => simp [h5] at hya
        | some z => exact decode_fields_ok hc hs h4 h5
  · simp only [denArms] at h3
    obtain ⟨y, hy⟩ := numArms_last hl h3
    have := err_need hy
    exact hs ▸ this

theorem decode_enum_need {o : BytesType} {sc : Scope} {e : Simplify.Enum} {i : Impl} {c : Ctx} {exp : Option RType}
    {x : RType × M} (hc : c.opts = o) (hs : c.scope = sc)
    (hf : ∀ v ∈ e.variants, (v.fields.fields.map (·.name)).Nodup ∧ (v.fields.kind = .unit → v.fields.fields = []))
    (hi : decodeEnum o e = some i) (h : seqSem (denStmts i.body) c exp = some x) : ∀ v ∈ e.variants, ∀ f ∈ v.fields.fields,
      f.name ≠ "r" ∧ f.name ≠ "id" ∧ fieldText o sc f.ty = true ∧ decOk o sc.arity (low sc f.ty) = true := by
  obtain ⟨arms, w, h1, h3, hl⟩ := decode_enum_arms hi h
  intro v hv
  by_cases hk : v.fields.kind = .unit
  · rw [(hf v hv).2 hk]
    exact fun f hf => nomatch hf
  obtain ⟨arm, ham, hda⟩ := all_some h1 v hv
  simp only [decodeVariant] at hda
  cases h4 : decodeFields o (some v.name) v.fields with
  | none => simp [h4] at hda
  | some body =>
    simp only [h4, hk, if_false, Option.bind_eq_bind, Option.bind_some, Option.pure_def, Option.some.injEq] at hda
    subst hda
    obtain ⟨ya, hya⟩ := numArms_mem (pre := []) (arms := denArms arms) (fun p hp => nomatch hp) hl h3 (denArms_mem ham)
    rw [den, Arg.expr] at hya
    simp only [blockSem] at hya
    cases h5 : seqSem (denStmts body) c exp with
    | none => simp [h5] at hya
    | some z => exact decode_fields_need hc hs (hf v hv).1 (hf v hv).2 h4 h5

theorem decode_struct_values {o : BytesType} {sc : Scope} {st : Simplify.Struct} {i : Impl} {c : Ctx} {exp : Option RType}
    {x : RType × M} (hc : c.opts = o) (hs : c.scope = sc) (hi : decodeStruct o st = some i)
    (h : seqSem (denStmts i.body) c exp = some x) : sc.values "Ok" = false := by
  simp only [decodeStruct] at hi
  cases h1 : decodeFields o none st.fields with
  | none => simp [h1] at hi
  | some ss =>
    simp [h1] at hi
    subst hi
    exact decode_fields_ok hc hs h1 h

/-- If all three functions compile, the names and types are good. -/
theorem item_need {files : Build.Files} {o : BytesType} {abs : List String} {it : Build.Item}
    (h1 : (sizeFn files o abs it).isSome = true) (h2 : (encodeFn files o abs it).isSome = true)
    (h3 : (decodeFn files o abs it).isSome = true) :
    valuesGood (scopeAt files abs.dropLast it.generics) it = true ∧
      itemGood o (scopeAt files abs.dropLast it.generics) it = true := by
  have hsz : ∃ i m, sizeImplOf o it = some i ∧ seqSem (denStmts i.body) (sizeCtx files o abs it) (some .usize) = some (.usize, m) := by
    simp only [sizeFn] at h1
    cases hi : sizeImplOf o it with
    | none => simp [hi] at h1
    | some i =>
      simp only [hi, Option.bind_eq_bind, Option.bind_some, fnBody] at h1
      cases hc : Elab.check (seqSem (denStmts i.body)) (sizeCtx files o abs it) (sizeCtx files o abs it).ret with
      | none => simp [hc] at h1
      | some m =>
        obtain ⟨u, h4, h5⟩ := check_some hc
        have := same_usize h5
        subst this
        exact ⟨i, m, rfl, h4⟩
  have hen : ∃ i x, encodeImplOf o it = some i ∧ seqSem (denStmts i.body) (encodeCtx files o abs it) (some .unit) = some x := by
    simp only [encodeFn] at h2
    cases hi : encodeImplOf o it with
    | none => simp [hi] at h2
    | some i =>
      simp only [hi, Option.bind_eq_bind, Option.bind_some, fnBody] at h2
      cases hc : Elab.check (seqSem (denStmts i.body)) (encodeCtx files o abs it) (encodeCtx files o abs it).ret with
      | none => simp [hc] at h2
      | some m =>
        obtain ⟨u, h4, _⟩ := check_some hc
        exact ⟨i, _, rfl, h4⟩
  have hde : ∃ i exp x, decodeImplOf o it = some i ∧ seqSem (denStmts i.body) (decodeCtx files o abs it) exp = some x := by
    simp only [decodeFn] at h3
    cases hi : decodeImplOf o it with
    | none => simp [hi] at h3
    | some i =>
      simp only [hi, Option.bind_eq_bind, Option.bind_some, fnBody] at h3
      cases hc : Elab.check (seqSem (denStmts i.body)) (decodeCtx files o abs it) (decodeCtx files o abs it).ret with
      | none => simp [hc] at h3
      | some m =>
        obtain ⟨u, h4, _⟩ := check_some hc
        exact ⟨i, _, _, rfl, h4⟩
  have hat := at_ctx (files := files) (o := o) (abs := abs) (it := it) (ret := .usize)
    (vars := [("self", .ref (.own (.ext abs (params it.generics.length))), false)]) rfl
  have hat' := at_ctx (files := files) (o := o) (abs := abs) (it := it) (ret := .unit)
    (vars := [("w", .writer, false), ("self", .ref (.own (.ext abs (params it.generics.length))), false)]) rfl
  obtain ⟨i1, m1, hi1, hs1⟩ := hsz
  obtain ⟨i2, x2, hi2, hs2⟩ := hen
  obtain ⟨i3, exp, x3, hi3, hs3⟩ := hde
  cases it with
  | struct st =>
    obtain ⟨a1, a2, a3, a4⟩ := size_struct_need hat hi1 hs1
    have b := encode_struct_need hat' a1 a3 hi2 hs2
    have d := decode_struct_need (o := o) (sc := scopeAt files abs.dropLast st.generics) rfl rfl a1 a3 hi3 hs3
    refine ⟨by simpa [valuesGood, Build.Item.generics] using decode_struct_values (o := o) (sc := scopeAt files abs.dropLast st.generics) rfl rfl hi3 hs3,
      fieldsGood_iff.2 ⟨a3, a1, fun f hf => fieldGood_iff.2 ?_⟩⟩
    obtain ⟨d1, d2, d3, d4⟩ := d f hf
    exact ⟨⟨a2 f hf, b f hf, d1, d2⟩, d3, a4 f hf, d4⟩
  | enum e =>
    obtain ⟨a1, a2, a3⟩ := size_enum_need hat hi1 hs1
    have hfs : ∀ v ∈ e.variants, (v.fields.fields.map (·.name)).Nodup ∧ (v.fields.kind = .unit → v.fields.fields = []) :=
      fun v hv => ⟨(a3 v hv).2.1, (a3 v hv).2.2.2.1⟩
    have b := encode_enum_need hat' a2 hfs hi2 hs2
    have d := decode_enum_need (o := o) (sc := scopeAt files abs.dropLast e.generics) rfl rfl hfs hi3 hs3
    have hv := decode_enum_values (o := o) (sc := scopeAt files abs.dropLast e.generics) rfl rfl (by simpa using a1) hi3 hs3
    refine ⟨by simpa [valuesGood, Build.Item.generics] using hv, ?_⟩
    simp only [itemGood, Bool.and_eq_true, Bool.not_eq_true', decide_eq_true_eq, List.all_eq_true]
    refine ⟨⟨by simpa using a1, a2⟩, fun v hv => ⟨(a3 v hv).1, fieldsGood_iff.2 ⟨(a3 v hv).2.2.2.1, (a3 v hv).2.1, fun f hf =>
      fieldGood_iff.2 ?_⟩⟩⟩
    obtain ⟨d1, d2, d3, d4⟩ := d v hv f hf
    exact ⟨⟨(a3 v hv).2.2.1 f hf, b v hv f hf, d1, d2⟩, d3, (a3 v hv).2.2.2.2 f hf, d4⟩

end Mabo.Rust
