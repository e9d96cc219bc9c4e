import Verif.Rust.NeedSize
import Verif.Rust.TextSem
/-!
The converse of `Rust/TextSem.lean` and `Rust/DecodeSem.lean`: if a written type means what it should, then it satisfies
`textOk`; if the code of `decodeTy` compiles, then the type satisfies `decOk`.
-/
namespace Mabo.Rust
open Mabo.Schema (Prim Ty)

/-! ### Written types -/

theorem crateNamed_some {sc : Scope} {abs : List String} {args : List Rt} {x : Rt} (h : crateNamed sc abs args = some x) :
    sc.arity abs = some args.length ∧ x = .named abs args := by
  unfold crateNamed at h
  split at h
  · next ha =>
    injection h with h
    exact ⟨ha, h.symm⟩
  · cases h

/-- A single name that means a builtin type is one of the prelude. -/
theorem local_builtin {sc : Scope} {n b : String} {args as : List Rt} (h : localTy sc [] n args = some (.builtin b as)) :
    preludeTy n args = some (.builtin b as) := by
  rw [localTy, if_pos rfl] at h
  split at h
  · split at h
    · injection h with h
      cases h
    · cases h
  · split at h
    · have := (crateNamed_some h).2
      cases this
    · split at h
      · cases h
      · exact h

theorem local_free {sc : Scope} {name a : String} {args b : List Rt} (h : localTy sc [] name args = some (.builtin a b)) :
    nameFree sc name = true := by
  simp only [localTy, if_true] at h
  simp only [nameFree, Bool.and_eq_true, Bool.not_eq_true', Option.isNone_iff_eq_none, List.contains_eq_mem,
    decide_eq_false_iff_not]
  by_cases hn : name ∈ sc.generics
  · rw [if_pos hn] at h
    split at h <;> cases h
  · rw [if_neg hn] at h
    cases hl : sc.look [] name with
    | some abs =>
      simp only [hl] at h
      have := (crateNamed_some h).2
      cases this
    | none =>
      cases ho : sc.other name with
      | true => simp [hl, ho] at h
      | false => exact ⟨⟨hn, rfl⟩, rfl⟩

theorem readTy_one {sc : Scope} {n : String} {es : List TyE} {x : Rt} (h : readTy sc (.path false [n] es) = some x) :
    ∃ as, readTys sc es = some as ∧ localTy sc [] n as = some x := by
  rw [readTy] at h
  cases h1 : readTys sc es with
  | none => simp [h1] at h
  | some as =>
    simp [h1] at h
    exact ⟨as, rfl, h⟩

theorem readTys_one {sc : Scope} {e : TyE} {as : List Rt} (h : readTys sc [e] = some as) :
    ∃ a, readTy sc e = some a ∧ as = [a] := by
  simp only [readTys] at h
  cases h1 : readTy sc e with
  | none => simp [h1] at h
  | some a =>
    simp [h1] at h
    exact ⟨a, rfl, h.symm⟩

theorem readTys_two {sc : Scope} {e e' : TyE} {as : List Rt} (h : readTys sc [e, e'] = some as) :
    ∃ a b, readTy sc e = some a ∧ readTy sc e' = some b ∧ as = [a, b] := by
  simp only [readTys] at h
  cases h1 : readTy sc e with
  | none => simp [h1] at h
  | some a =>
    cases h2 : readTy sc e' with
    | none => simp [h1, h2] at h
    | some b =>
      simp [h1, h2] at h
      exact ⟨a, b, rfl, rfl, h.symm⟩

theorem readTy_crate {sc : Scope} {segs : List String} {es : List TyE} {x : Rt} (h : readTy sc (.path true segs es) = some x) :
    ∃ as, readTys sc es = some as ∧ crateTy segs as = some x := by
  rw [readTy] at h
  cases h1 : readTys sc es with
  | none => simp [h1] at h
  | some as =>
    simp [h1] at h
    exact ⟨as, rfl, h⟩

theorem prelude_vec {args : List Rt} {x : Rt} (h : preludeTy "Vec" args = some (.builtin "Vec" [x])) : args = [x] := by
  match args with
  | [] => simp [preludeTy] at h
  | [a] => simpa [preludeTy] using h
  | a :: b :: l => simp [preludeTy] at h

theorem prelude_option {args : List Rt} {x : Rt} (h : preludeTy "Option" args = some (.builtin "Option" [x])) : args = [x] := by
  match args with
  | [] => simp [preludeTy] at h
  | [a] => simpa [preludeTy] using h
  | a :: b :: l => simp [preludeTy] at h

theorem read_vec {sc : Scope} {e : TyE} {x : Rt} (h : readTy sc (.path false ["Vec"] [e]) = some (.builtin "Vec" [x])) :
    nameFree sc "Vec" = true ∧ readTy sc e = some x := by
  obtain ⟨as, h1, h2⟩ := readTy_one h
  obtain ⟨a, h3, rfl⟩ := readTys_one h1
  have := prelude_vec (local_builtin h2)
  injection this with this
  rw [h3, this]
  exact ⟨local_free h2, rfl⟩

theorem read_option {sc : Scope} {e : TyE} {x : Rt}
    (h : readTy sc (.path false ["Option"] [e]) = some (.builtin "Option" [x])) :
    nameFree sc "Option" = true ∧ readTy sc e = some x := by
  obtain ⟨as, h1, h2⟩ := readTy_one h
  obtain ⟨a, h3, rfl⟩ := readTys_one h1
  have := prelude_option (local_builtin h2)
  injection this with this
  rw [h3, this]
  exact ⟨local_free h2, rfl⟩

theorem crate_one {sc : Scope} {segs : List String} {e : TyE} {x y : Rt} (h : readTy sc (.path true segs [e]) = some x)
    (hc : ∀ a, crateTy segs [a] = some x → a = y) : readTy sc e = some y := by
  obtain ⟨as, h1, h2⟩ := readTy_crate h
  obtain ⟨a, h3, rfl⟩ := readTys_one h1
  rw [h3, hc a h2]

theorem crate_two {sc : Scope} {segs : List String} {e e' : TyE} {x y z : Rt} (h : readTy sc (.path true segs [e, e']) = some x)
    (hc : ∀ a b, crateTy segs [a, b] = some x → a = y ∧ b = z) : readTy sc e = some y ∧ readTy sc e' = some z := by
  obtain ⟨as, h1, h2⟩ := readTy_crate h
  obtain ⟨a, b, h3, h4, rfl⟩ := readTys_two h1
  obtain ⟨rfl, rfl⟩ := hc a b h2
  exact ⟨h3, h4⟩

theorem rustOfs_length (o : BytesType) (l : List Ty) : (rustOfs o l).length = l.length := by
  induction l with
  | nil => rfl
  | cons a l ih => rw [rustOfs, List.length_cons, List.length_cons, ih]

theorem one_need {sc : Scope} {n a : String} {b : List Rt} (h : readTy sc (one n) = some (.builtin a b)) :
    nameFree sc n = true := by
  obtain ⟨as, _, h2⟩ := readTy_one h
  exact local_free h2

theorem prim_need {sc : Scope} (o : BytesType) (p : Prim) (h : readTy sc (primTy o p) = some (rustPrim o p)) :
    (primNames o p).all (nameFree sc) = true := by
  have vec : readTy sc (.path false ["Vec"] [one "u8"]) = some (.builtin "Vec" [base "u8"]) →
      ["Vec", "u8"].all (nameFree sc) = true := fun h => by
    obtain ⟨h1, h2⟩ := read_vec h
    simp only [List.all_cons, h1, one_need h2, List.all_nil, Bool.and_self]
  cases p with
  | bytes => cases o <;> first | exact vec h | rfl
  | bytesRef => cases o <;> first | exact vec h | rfl
  | boxString =>
    obtain ⟨as, h1, h2⟩ := readTy_one h
    obtain ⟨a, h3, rfl⟩ := readTys_one h1
    have h4 := local_builtin h2
    simp [preludeTy] at h4
    subst h4
    simp only [primNames, List.all_cons, local_free h2, one_need h3, List.all_nil, Bool.and_self]
  | boxBytes =>
    obtain ⟨as, h1, h2⟩ := readTy_one h
    obtain ⟨a, h3, rfl⟩ := readTys_one h1
    have h4 := local_builtin h2
    simp [preludeTy] at h4
    subst h4
    simp only [readTy] at h3
    cases h5 : readTy sc (one "u8") with
    | none => simp [h5] at h3
    | some y =>
      simp [h5] at h3
      subst h3
      simp only [primNames, List.all_cons, local_free h2, one_need h5, List.all_nil, Bool.and_self]
  | _ => simp only [primNames, List.all_cons, one_need h, List.all_nil, Bool.and_self]

mutual
/-- A text that means the type. -/
theorem text_need {sc : Scope} (o : BytesType) : ∀ (t : Simplify.Ty) (e : TyE), tyText o t = some e →
    readTy sc e = some (rustOf o (low sc t)) → textOk o sc t = true
  | .prim p, e, he, h => by
    simp only [tyText, Option.some.injEq] at he
    subst he
    simp only [low, Build.lowerTy, rustOf] at h
    rw [textOk]
    exact prim_need o p h
  | .vec t, e, he, h => by
    simp only [tyText] at he
    cases h1 : tyText o t with
    | none => simp [h1] at he
    | some e' =>
      simp [h1] at he
      subst he
      simp only [low, Build.lowerTy, rustOf] at h
      rw [textOk, Bool.and_eq_true]
      exact ⟨(read_vec h).1, text_need o t e' h1 (read_vec h).2⟩
  | .option t, e, he, h => by
    simp only [tyText] at he
    cases h1 : tyText o t with
    | none => simp [h1] at he
    | some e' =>
      simp [h1] at he
      subst he
      simp only [low, Build.lowerTy, rustOf] at h
      rw [textOk, Bool.and_eq_true]
      exact ⟨(read_option h).1, text_need o t e' h1 (read_option h).2⟩
  | .hashSet t, e, he, h => by
    simp only [tyText] at he
    cases h1 : tyText o t with
    | none => simp [h1] at he
    | some e' =>
      simp [h1] at he
      subst he
      simp only [low, Build.lowerTy, rustOf] at h
      rw [textOk]
      exact text_need o t e' h1 (crate_one h fun a ha => by simpa [crateTy] using ha)
  | .hashMap k v, e, he, h => by
    simp only [tyText] at he
    cases h1 : tyText o k with
    | none => simp [h1] at he
    | some e1 =>
      cases h2 : tyText o v with
      | none => simp [h1, h2] at he
      | some e2 =>
        simp [h1, h2] at he
        subst he
        simp only [low, Build.lowerTy, rustOf] at h
        obtain ⟨h3, h4⟩ := crate_two h fun a b ha => by simpa [crateTy] using ha
        rw [textOk, Bool.and_eq_true]
        exact ⟨text_need o k e1 h1 h3, text_need o v e2 h2 h4⟩
  | .array t n, e, he, h => by
    simp only [tyText] at he
    cases h1 : tyText o t with
    | none => simp [h1] at he
    | some e' =>
      simp [h1] at he
      subst he
      simp only [low, Build.lowerTy, rustOf, readTy] at h
      cases h2 : readTy sc e' with
      | none => simp [h2] at h
      | some x =>
        simp [h2] at h
        subst h
        rw [textOk]
        exact text_need o t e' h1 h2
  | .tuple ts, e, he, h => by
    simp only [tyText] at he
    cases h1 : tyTexts o ts with
    | none => simp [h1] at he
    | some es =>
      simp [h1] at he
      subst he
      simp only [low, Build.lowerTy, rustOf, readTy] at h
      cases h2 : readTys sc es with
      | none => simp [h2] at h
      | some x =>
        simp [h2] at h
        subst h
        rw [textOk]
        exact texts_need o ts es h1 h2
  | .external path name args, e, he, h => by
    simp only [tyText] at he
    cases h1 : tyTexts o args with
    | none => simp [h1] at he
    | some es =>
      simp [h1] at he
      subst he
      simp only [readTy, List.getLast?_append, List.getLast?_singleton, Option.some_or, List.dropLast_concat] at h
      cases h2 : readTys sc es with
      | none => simp [h2] at h
      | some as =>
        simp only [h2, Option.bind_eq_bind, Option.bind_some] at h
        rw [textOk]
        by_cases hc : path = [] ∧ name ∈ sc.generics
        · rw [if_pos hc]
          obtain ⟨rfl, hn⟩ := hc
          simp only [localTy, if_true, hn] at h
          cases args with
          | nil => rfl
          | cons t ts =>
            simp only [tyTexts] at h1
            cases h3 : tyText o t with
            | none => simp [h3] at h1
            | some e1 =>
              cases h4 : tyTexts o ts with
              | none => simp [h3, h4] at h1
              | some e2 =>
                simp [h3, h4] at h1
                subst h1
                simp only [readTys] at h2
                cases h5 : readTy sc e1 with
                | none => simp [h5] at h2
                | some x =>
                  cases h6 : readTys sc e2 with
                  | none => simp [h5, h6] at h2
                  | some xs =>
                    simp [h5, h6] at h2
                    subst h2
                    simp at h
        · rw [if_neg hc, Bool.and_eq_true]
          simp only [low, Build.lowerTy, hc, if_false, rustOf] at h
          have key : ∃ abs, sc.look path name = some abs ∧ crateNamed sc abs as =
              some (.named ((sc.look path name).getD []) (rustOfs o (Build.lowerTys sc.look sc.generics args))) := by
            rw [localTy] at h
            by_cases hp : path = []
            · subst hp
              have hn : name ∉ sc.generics := fun hn => hc ⟨rfl, hn⟩
              rw [if_pos rfl, if_neg hn] at h
              cases hl : sc.look [] name with
              | some abs =>
                rw [hl] at h
                exact ⟨abs, rfl, h⟩
              | none =>
                exfalso
                simp only [hl] at h
                split at h
                · cases h
                · unfold preludeTy at h
                  split at h <;> simp [base] at h
            · rw [if_neg hp] at h
              cases hl : sc.look path name with
              | some abs =>
                rw [hl] at h
                exact ⟨abs, rfl, h⟩
              | none => simp [hl] at h
          obtain ⟨abs, hl, hcr⟩ := key
          obtain ⟨ha, hx⟩ := crateNamed_some hcr
          injection hx with _ hx
          subst hx
          rw [hl]
          refine ⟨?_, texts_need o args es h1 h2⟩
          rw [rustOfs_length, lowerTys_length] at ha
          simpa using ha
  | .nonZero (.prim p), e, he, h => by
    simp only [tyText] at he
    rw [textOk]
    cases p <;> first | rfl | simp [nonZeroTy] at he
  | .nonZero (.vec t), e, he, h => by
    simp only [tyText] at he
    cases h1 : tyText o t with
    | none => simp [h1] at he
    | some e' =>
      simp [h1] at he
      subst he
      simp only [low, Build.lowerTy, rustOf] at h
      rw [textOk]
      exact text_need o t e' h1 (crate_one h fun a ha => by simpa [crateTy] using ha)
  | .nonZero (.hashSet t), e, he, h => by
    simp only [tyText] at he
    cases h1 : tyText o t with
    | none => simp [h1] at he
    | some e' =>
      simp [h1] at he
      subst he
      simp only [low, Build.lowerTy, rustOf] at h
      rw [textOk]
      exact text_need o t e' h1 (crate_one h fun a ha => by simpa [crateTy] using ha)
  | .nonZero (.hashMap k v), e, he, h => by
    simp only [tyText] at he
    cases h1 : tyText o k with
    | none => simp [h1] at he
    | some e1 =>
      cases h2 : tyText o v with
      | none => simp [h1, h2] at he
      | some e2 =>
        simp [h1, h2] at he
        subst he
        simp only [low, Build.lowerTy, rustOf] at h
        obtain ⟨h3, h4⟩ := crate_two h fun a b ha => by simpa [crateTy] using ha
        rw [textOk, Bool.and_eq_true]
        exact ⟨text_need o k e1 h1 h3, text_need o v e2 h2 h4⟩
  | .nonZero (.option _), e, he, h => by simp [tyText] at he
  | .nonZero (.nonZero _), e, he, h => by simp [tyText] at he
  | .nonZero (.tuple _), e, he, h => by simp [tyText] at he
  | .nonZero (.array _ _), e, he, h => by simp [tyText] at he
  | .nonZero (.external _ _ _), e, he, h => by simp [tyText] at he
/-- All of them. -/
theorem texts_need {sc : Scope} (o : BytesType) : ∀ (ts : List Simplify.Ty) (es : List TyE), tyTexts o ts = some es →
    readTys sc es = some (rustOfs o (Build.lowerTys sc.look sc.generics ts)) → textOks o sc ts = true
  | [], _, _, _ => rfl
  | t :: ts, es, he, h => by
    simp only [tyTexts] at he
    cases h1 : tyText o t with
    | none => simp [h1] at he
    | some e1 =>
      cases h2 : tyTexts o ts with
      | none => simp [h1, h2] at he
      | some e2 =>
        simp [h1, h2] at he
        subst he
        simp only [readTys, Build.lowerTys, rustOfs] at h
        cases h3 : readTy sc e1 with
        | none => simp [h3] at h
        | some x =>
          cases h4 : readTys sc e2 with
          | none => simp [h3, h4] at h
          | some xs =>
            simp [h3, h4] at h
            obtain ⟨rfl, rfl⟩ := h
            rw [textOks, Bool.and_eq_true]
            exact ⟨text_need o t e1 h1 h3, texts_need o ts e2 h2 h4⟩
end

/-! ### Decoders -/

theorem reading_need {c : Ctx} {e : Expr} {T : Ty} {f : List RVal → M}
    (h : (den (reading e)).fn c [.reader] (.result (.own T)) = some f) :
    ∃ c' u m, c'.opts = c.opts ∧ c'.scope = c.scope ∧ (den e).plain c' (some (.result (.own T))) = some (u, m) := by
  obtain ⟨u, m, h1, _⟩ := fn_some h
  simp only [denStmts, denStmt, seqSem] at h1
  exact ⟨c.clos ["r"] [.reader] (.result (.own T)), u, m, rfl, rfl, h1⟩

section
variable {c : Ctx} {r cl ck cv : Arg} {T K V : Ty} {x : RType × M}

theorem need_decVec (h : callSem .decVec [r, cl] c (some (.result (.own (.vec T)))) = some x) :
    ∃ f, cl.fn c [.reader] (.result (.own T)) = some f := by
  cases hf : cl.fn c [.reader] (.result (.own T)) with
  | none => simp [callSem, hf] at h
  | some f => exact ⟨f, rfl⟩

theorem need_decNzVec (h : callSem .decNzVec [r, cl] c (some (.result (.own (.nonZero (.vec T))))) = some x) :
    ∃ f, cl.fn c [.reader] (.result (.own T)) = some f := by
  cases hf : cl.fn c [.reader] (.result (.own T)) with
  | none => simp [callSem, hf] at h
  | some f => exact ⟨f, rfl⟩

theorem need_decOption (h : callSem .decOption [r, cl] c (some (.result (.own (.option T)))) = some x) :
    ∃ f, cl.fn c [.reader] (.result (.own T)) = some f := by
  cases hf : cl.fn c [.reader] (.result (.own T)) with
  | none => simp [callSem, hf] at h
  | some f => exact ⟨f, rfl⟩

theorem need_decArray {n : Nat} (h : callSem .decArray [r, cl] c (some (.result (.own (.array T n)))) = some x) :
    ∃ f, cl.fn c [.reader] (.result (.own T)) = some f := by
  cases hf : cl.fn c [.reader] (.result (.own T)) with
  | none => simp [callSem, hf] at h
  | some f => exact ⟨f, rfl⟩

theorem need_decSet (h : callSem .decHashSet [r, cl] c (some (.result (.own (.hashSet T)))) = some x) :
    hashable T = true ∧ ∃ f, cl.fn c [.reader] (.result (.own T)) = some f := by
  cases hf : cl.fn c [.reader] (.result (.own T)) with
  | none => simp [callSem, hf] at h
  | some f =>
    cases hh : hashable T with
    | false => simp [callSem, hf, hh] at h
    | true => exact ⟨rfl, f, rfl⟩

theorem need_decNzSet (h : callSem .decNzHashSet [r, cl] c (some (.result (.own (.nonZero (.hashSet T))))) = some x) :
    hashable T = true ∧ ∃ f, cl.fn c [.reader] (.result (.own T)) = some f := by
  cases hf : cl.fn c [.reader] (.result (.own T)) with
  | none => simp [callSem, hf] at h
  | some f =>
    cases hh : hashable T with
    | false => simp [callSem, hf, hh] at h
    | true => exact ⟨rfl, f, rfl⟩

theorem need_decMap (h : callSem .decHashMap [r, ck, cv] c (some (.result (.own (.hashMap K V)))) = some x) :
    hashable K = true ∧ (∃ f, ck.fn c [.reader] (.result (.own K)) = some f) ∧
      ∃ f, cv.fn c [.reader] (.result (.own V)) = some f := by
  cases hf : ck.fn c [.reader] (.result (.own K)) with
  | none => simp [callSem, hf] at h
  | some f =>
    cases hg : cv.fn c [.reader] (.result (.own V)) with
    | none => simp [callSem, hf, hg] at h
    | some g =>
      cases hh : hashable K with
      | false => simp [callSem, hf, hg, hh] at h
      | true => exact ⟨rfl, ⟨f, rfl⟩, g, rfl⟩

theorem need_decNzMap (h : callSem .decNzHashMap [r, ck, cv] c (some (.result (.own (.nonZero (.hashMap K V))))) = some x) :
    hashable K = true ∧ (∃ f, ck.fn c [.reader] (.result (.own K)) = some f) ∧
      ∃ f, cv.fn c [.reader] (.result (.own V)) = some f := by
  cases hf : ck.fn c [.reader] (.result (.own K)) with
  | none => simp [callSem, hf] at h
  | some f =>
    cases hg : cv.fn c [.reader] (.result (.own V)) with
    | none => simp [callSem, hf, hg] at h
    | some g =>
      cases hh : hashable K with
      | false => simp [callSem, hf, hg, hh] at h
      | true => exact ⟨rfl, ⟨f, rfl⟩, g, rfl⟩

end

theorem try_need {e : Elab} {c : Ctx} {t : RType} {x : RType × M} (h : trySem e c (some t) = some x) :
    ∃ u, e c (some (.result t)) = some u := by
  cases h1 : e c (some (.result t)) with
  | none => simp [trySem, h1] at h
  | some u => exact ⟨u, rfl⟩

theorem seq_tail_need {c : Ctx} {exp : Option RType} {e : Elab} {ss : List StmtSem} (hs : ∀ s ∈ ss, ∃ e, s = .semi e)
    {x : RType × M} (h : seqSem (ss ++ [.tail e]) c exp = some x) : ∃ y, e c exp = some y := by
  induction ss generalizing x with
  | nil => exact ⟨x, by simpa only [List.nil_append, seqSem] using h⟩
  | cons s ss ih =>
    obtain ⟨e', rfl⟩ := hs s List.mem_cons_self
    simp only [List.cons_append, seqSem] at h
    cases h1 : e' c none with
    | none => simp [h1] at h
    | some y =>
      cases h2 : seqSem (ss ++ [.tail e]) c exp with
      | none => simp [h1, h2] at h
      | some z => exact ih (fun s hm => hs s (List.mem_cons_of_mem _ hm)) h2

theorem ok_need {e : Elab} {c : Ctx} {t : RType} {x : RType × M} (h : okSem e c (some (.result t)) = some x) :
    ∃ y, e c (some t) = some y := by
  unfold okSem at h
  split at h
  · cases h
  · simp only [expOk] at h
    cases h1 : e c (some t) with
    | none => simp [h1] at h
    | some y => exact ⟨y, rfl⟩

theorem denStmts_append : ∀ a b : List Stmt, denStmts (a ++ b) = denStmts a ++ denStmts b
  | [], _ => rfl
  | s :: a, b => by rw [List.cons_append, denStmts, denStmts, denStmts_append a b, List.cons_append]

mutual
/-- The code that reads a type. -/
theorem decode_need (o : BytesType) (sc : Scope) : ∀ (t : Simplify.Ty) (root : Bool) (c : Ctx) (e : Expr) (x : RType × M),
    c.opts = o → c.scope = sc → decodeTy o root t = some e →
    (den e).plain c (some (.result (.own (low sc t)))) = some x → decOk o sc.arity (low sc t) = true
  | .prim p, _, _, _, _, _, _, _, _ => rfl
  | .vec t, root, c, e, x, hc, hs, he, h => by
    simp only [low, Build.lowerTy, decOk] at h ⊢
    simp only [decodeTy] at he
    cases h1 : decodeTy o false t with
    | none => simp [h1] at he
    | some e' =>
      simp [h1] at he
      subst he
      obtain ⟨f, hf⟩ := need_decVec h
      obtain ⟨c', u, m, h2, h3, h4⟩ := reading_need hf
      exact decode_need o sc t false c' e' _ (h2.trans hc) (h3.trans hs) h1 h4
  | .option t, root, c, e, x, hc, hs, he, h => by
    simp only [low, Build.lowerTy, decOk] at h ⊢
    simp only [decodeTy] at he
    cases h1 : decodeTy o false t with
    | none => simp [h1] at he
    | some e' =>
      simp [h1] at he
      subst he
      obtain ⟨f, hf⟩ := need_decOption h
      obtain ⟨c', u, m, h2, h3, h4⟩ := reading_need hf
      exact decode_need o sc t false c' e' _ (h2.trans hc) (h3.trans hs) h1 h4
  | .array t n, root, c, e, x, hc, hs, he, h => by
    simp only [low, Build.lowerTy, decOk] at h ⊢
    simp only [decodeTy] at he
    cases h1 : decodeTy o false t with
    | none => simp [h1] at he
    | some e' =>
      simp [h1] at he
      subst he
      obtain ⟨f, hf⟩ := need_decArray h
      obtain ⟨c', u, m, h2, h3, h4⟩ := reading_need hf
      exact decode_need o sc t false c' e' _ (h2.trans hc) (h3.trans hs) h1 h4
  | .hashSet t, root, c, e, x, hc, hs, he, h => by
    simp only [low, Build.lowerTy, decOk, Bool.and_eq_true] at h ⊢
    simp only [decodeTy] at he
    cases h1 : decodeTy o false t with
    | none => simp [h1] at he
    | some e' =>
      simp [h1] at he
      subst he
      obtain ⟨hh, f, hf⟩ := need_decSet h
      obtain ⟨c', u, m, h2, h3, h4⟩ := reading_need hf
      exact ⟨hh, decode_need o sc t false c' e' _ (h2.trans hc) (h3.trans hs) h1 h4⟩
  | .hashMap a b, root, c, e, x, hc, hs, he, h => by
    simp only [low, Build.lowerTy, decOk, Bool.and_eq_true] at h ⊢
    simp only [decodeTy] at he
    cases h1 : decodeTy o false a with
    | none => simp [h1] at he
    | some e1 =>
      cases h1' : decodeTy o false b with
      | none => simp [h1, h1'] at he
      | some e2 =>
        simp [h1, h1'] at he
        subst he
        obtain ⟨hh, ⟨f, hf⟩, g, hg⟩ := need_decMap h
        obtain ⟨c', u, m, h2, h3, h4⟩ := reading_need hf
        obtain ⟨c2, u2, m2, h5, h6, h7⟩ := reading_need hg
        exact ⟨⟨hh, decode_need o sc a false c' e1 _ (h2.trans hc) (h3.trans hs) h1 h4⟩,
          decode_need o sc b false c2 e2 _ (h5.trans hc) (h6.trans hs) h1' h7⟩
  | .tuple ts, root, c, e, x, hc, hs, he, h => by
    simp only [low, Build.lowerTy, decOk, Bool.and_eq_true, lowerTys_length] at h ⊢
    simp only [decodeTy] at he
    by_cases hl : tupleArm ts.length = true
    · rw [if_pos hl] at he
      refine ⟨hl, ?_⟩
      cases h1 : decodeItems o ts with
      | none => simp [h1] at he
      | some es =>
        simp only [h1, Option.bind_eq_bind, Option.bind_some, Option.pure_def, Option.some.injEq] at he
        subst he
        simp only [den, Arg.expr, blockSem, denStmts_append] at h
        cases h2 : seqSem (denStmts (if root = true then [Stmt.semi ((Expr.call (.decVal .u64) [r]).try)] else []) ++
            denStmts [.tail (.okTyped (.tuple es))]) c (some (.result (.own (.tuple (Build.lowerTys sc.look sc.generics ts))))) with
        | none => simp [h2] at h
        | some y =>
          have h3 := seq_tail_need (e := (den (.okTyped (.tuple es))).plain) (by
            intro s hm
            cases root
            · simp [denStmts] at hm
            · simp only [if_true, denStmts, denStmt, List.mem_singleton] at hm
              exact ⟨_, hm⟩) h2
          obtain ⟨z, h3⟩ := h3
          simp only [den, Arg.expr] at h3
          obtain ⟨z', h3⟩ := ok_need h3
          simp only [tupleSem] at h3
          cases h4 : itemsSem c (denList es) (Build.lowerTys sc.look sc.generics ts) with
          | none => simp [h4] at h3
          | some ms => exact decode_items_need o sc ts c es ms hc hs h1 h4
    · rw [if_neg hl] at he
      cases he
  | .external path name args, root, c, e, x, hc, hs, he, h => by
    simp only [decodeTy] at he
    cases h1 : tyText o (.external path name args) with
    | none => simp [h1] at he
    | some e' =>
      simp [h1] at he
      subst he
      simp only [den, Arg.expr, decodeSem] at h
      cases h2 : typed c ⟨e', .external path name args⟩ with
      | none => simp [h2] at h
      | some t =>
        have ht : t = low sc (.external path name args) := by
          simp only [typed] at h2
          split at h2
          · injection h2 with h2
            rw [← h2, hs]
          · cases h2
        subst ht
        have hd : hasDec o sc.arity (low sc (.external path name args)) = true := by
          cases hd : hasDec o sc.arity (low sc (.external path name args)) with
          | true => rfl
          | false => simp [h2, hc, hs, hd] at h
        simp only [low, Build.lowerTy] at hd ⊢
        by_cases hg : path = [] ∧ name ∈ sc.generics
        · rw [if_pos hg]
          rfl
        · rw [if_neg hg] at hd ⊢
          exact hd
  | .nonZero (.prim p), root, c, e, x, hc, hs, he, h => by
    simp only [decodeTy] at he
    simp only [low, Build.lowerTy, decOk]
    cases p <;> first | rfl | simp [isInt, nzInner] at he
  | .nonZero (.vec t), root, c, e, x, hc, hs, he, h => by
    simp only [low, Build.lowerTy, decOk] at h ⊢
    simp only [decodeTy] at he
    cases h1 : decodeTy o false t with
    | none => simp [h1] at he
    | some e' =>
      simp [h1] at he
      subst he
      obtain ⟨f, hf⟩ := need_decNzVec h
      obtain ⟨c', u, m, h2, h3, h4⟩ := reading_need hf
      exact decode_need o sc t false c' e' _ (h2.trans hc) (h3.trans hs) h1 h4
  | .nonZero (.hashSet t), root, c, e, x, hc, hs, he, h => by
    simp only [low, Build.lowerTy, decOk, Bool.and_eq_true] at h ⊢
    simp only [decodeTy] at he
    cases h1 : decodeTy o false t with
    | none => simp [h1] at he
    | some e' =>
      simp [h1] at he
      subst he
      obtain ⟨hh, f, hf⟩ := need_decNzSet h
      obtain ⟨c', u, m, h2, h3, h4⟩ := reading_need hf
      exact ⟨hh, decode_need o sc t false c' e' _ (h2.trans hc) (h3.trans hs) h1 h4⟩
  | .nonZero (.hashMap a b), root, c, e, x, hc, hs, he, h => by
    simp only [low, Build.lowerTy, decOk, Bool.and_eq_true] at h ⊢
    simp only [decodeTy] at he
    cases h1 : decodeTy o false a with
    | none => simp [h1] at he
    | some e1 =>
      cases h1' : decodeTy o false b with
      | none => simp [h1, h1'] at he
      | some e2 =>
        simp [h1, h1'] at he
        subst he
        obtain ⟨hh, ⟨f, hf⟩, g, hg⟩ := need_decNzMap h
        obtain ⟨c', u, m, h2, h3, h4⟩ := reading_need hf
        obtain ⟨c2, u2, m2, h5, h6, h7⟩ := reading_need hg
        exact ⟨⟨hh, decode_need o sc a false c' e1 _ (h2.trans hc) (h3.trans hs) h1 h4⟩,
          decode_need o sc b false c2 e2 _ (h5.trans hc) (h6.trans hs) h1' h7⟩
  | .nonZero (.option _), _, _, _, _, _, _, he, _ => by simp [decodeTy] at he
  | .nonZero (.nonZero _), _, _, _, _, _, _, he, _ => by simp [decodeTy] at he
  | .nonZero (.tuple _), _, _, _, _, _, _, he, _ => by simp [decodeTy] at he
  | .nonZero (.array _ _), _, _, _, _, _, _, he, _ => by simp [decodeTy] at he
  | .nonZero (.external _ _ _), _, _, _, _, _, _, he, _ => by simp [decodeTy] at he
/-- The elements of a tuple. -/
theorem decode_items_need (o : BytesType) (sc : Scope) : ∀ (ts : List Simplify.Ty) (c : Ctx) (es : List Expr) (ms : List M),
    c.opts = o → c.scope = sc → decodeItems o ts = some es →
    itemsSem c (denList es) (Build.lowerTys sc.look sc.generics ts) = some ms →
    decOks o sc.arity (Build.lowerTys sc.look sc.generics ts) = true
  | [], _, _, _, _, _, _, _ => rfl
  | t :: ts, c, es, ms, hc, hs, he, h => by
    simp only [decodeItems] at he
    cases h1 : decodeTy o false t with
    | none => simp [h1] at he
    | some e1 =>
      cases h2 : decodeItems o ts with
      | none => simp [h1, h2] at he
      | some es' =>
        simp [h1, h2] at he
        subst he
        simp only [Build.lowerTys, denList, itemsSem] at h
        simp only [Build.lowerTys, decOks, Bool.and_eq_true]
        cases h3 : (den e1.try).plain.check c (.own (Build.lowerTy sc.look sc.generics t)) with
        | none => simp [h3] at h
        | some m =>
          cases h4 : itemsSem c (denList es') (Build.lowerTys sc.look sc.generics ts) with
          | none => simp [h3, h4] at h
          | some ms' =>
            obtain ⟨u, h5, _⟩ := check_some h3
            simp only [den, Arg.expr] at h5
            obtain ⟨y, h6⟩ := try_need h5
            exact ⟨decode_need o sc t false c e1 y hc hs h1 h6, decode_items_need o sc ts c es' ms' hc hs h2 h4⟩
end

end Mabo.Rust
