import Verif.Rust.ItemSem
/-!
The types that are written in generated code mean what they should.
-/
namespace Mabo.Rust
open Mabo.Schema (Prim Ty)

theorem prelude_local {sc : Scope} {n : String} (h : nameFree sc n = true) (args : List Rt) :
    localTy sc [] n args = preludeTy n args := by
  simp only [nameFree, Bool.and_eq_true, Bool.not_eq_true', Option.isNone_iff_eq_none] at h
  obtain ⟨⟨h1, h2⟩, h3⟩ := h
  simp only [List.contains_eq_mem, decide_eq_false_iff_not] at h1
  rw [localTy, if_pos rfl, if_neg h1, h2, h3]
  rfl

theorem slotFree_iff {sc : Scope} : slotFree sc = true ↔
    nameFree sc "Option" = true ∧ sc.values "None" = false ∧ sc.values "Some" = false := by
  simp only [slotFree, Bool.and_eq_true, Bool.not_eq_true', and_assoc]

/-- A single name with arguments. -/
theorem read_one {sc : Scope} {n : String} (h : nameFree sc n = true) {es : List TyE} {args : List Rt}
    (he : readTys sc es = some args) : readTy sc (.path false [n] es) = preludeTy n args := by
  rw [readTy, he]
  exact prelude_local h args

theorem read_prim {sc : Scope} (o : BytesType) (p : Prim) (h : (primNames o p).all (nameFree sc) = true) :
    readTy sc (primTy o p) = some (rustPrim o p) := by
  rw [List.all_eq_true] at h
  have hu8 : nameFree sc "u8" = true → readTy sc (one "u8") = some (base "u8") := fun h => (read_one h rfl).trans rfl
  have hstr : nameFree sc "str" = true → readTy sc (one "str") = some (base "str") := fun h => (read_one h rfl).trans rfl
  have hbytes : readTy sc bytesTy = some (base "Bytes") := by simp [bytesTy, readTy, readTys, crateTy]
  have hv : nameFree sc "u8" = true → readTys sc [one "u8"] = some [base "u8"] := fun h => by simp [readTys, hu8 h]
  cases p with
  | bytes =>
    cases o with
    | vecU8 => exact (read_one (h "Vec" (by simp [primNames])) (hv (h "u8" (by simp [primNames])))).trans rfl
    | bytes => exact hbytes
  | bytesRef =>
    cases o with
    | vecU8 => exact (read_one (h "Vec" (by simp [primNames])) (hv (h "u8" (by simp [primNames])))).trans rfl
    | bytes => exact hbytes
  | boxString =>
    have : readTys sc [one "str"] = some [base "str"] := by simp [readTys, hstr (h "str" (by simp [primNames]))]
    exact (read_one (h "Box" (by simp [primNames])) this).trans rfl
  | boxBytes =>
    have : readTys sc [.slice (one "u8")] = some [.slice (base "u8")] := by
      simp [readTys, readTy, hu8 (h "u8" (by simp [primNames]))]
    exact (read_one (h "Box" (by simp [primNames])) this).trans rfl
  | _ => exact (read_one (h _ (List.mem_cons_self ..)) rfl).trans rfl

theorem read_nz {sc : Scope} {o : BytesType} {p : Prim} (hp : nzPrim p = true) :
    ∃ e, nonZeroTy o p = some e ∧ readTy sc e = some (rustOf o (.nonZero (.prim p))) := by
  cases p <;> cases o <;> first
    | (simp [nzPrim] at hp; done)
    | exact ⟨_, rfl, by simp [readTy, readTys, crateTy, rustOf, rustNonZero, bytesTy, rustPrim, base]⟩

mutual
/-- The text of a type means that type. -/
theorem text_ok {sc : Scope} (o : BytesType) : ∀ t : Simplify.Ty, textOk o sc t = true →
    ∃ e, tyText o t = some e ∧ readTy sc e = some (rustOf o (low sc t))
  | .prim p, ht => ⟨_, rfl, read_prim o p (by rw [textOk] at ht; exact ht)⟩
  | .vec t, ht => by
    rw [textOk, Bool.and_eq_true] at ht
    obtain ⟨e, h1, h2⟩ := text_ok o t ht.2
    refine ⟨_, by simp only [tyText, h1]; rfl, ?_⟩
    rw [read_one ht.1 (by simp only [readTys, h2]; rfl)]
    rfl
  | .hashSet t, ht => by
    rw [textOk] at ht
    obtain ⟨e, h1, h2⟩ := text_ok o t ht
    refine ⟨_, by simp only [tyText, h1]; rfl, ?_⟩
    simp only [readTy, readTys, h2]
    rfl
  | .option t, ht => by
    rw [textOk, Bool.and_eq_true] at ht
    obtain ⟨e, h1, h2⟩ := text_ok o t ht.2
    refine ⟨_, by simp only [tyText, h1]; rfl, ?_⟩
    rw [read_one ht.1 (by simp only [readTys, h2]; rfl)]
    rfl
  | .array t n, ht => by
    rw [textOk] at ht
    obtain ⟨e, h1, h2⟩ := text_ok o t ht
    refine ⟨_, by simp only [tyText, h1]; rfl, ?_⟩
    simp only [readTy, h2]
    rfl
  | .hashMap k v, ht => by
    rw [textOk, Bool.and_eq_true] at ht
    obtain ⟨e, h1, h2⟩ := text_ok o k ht.1
    obtain ⟨e', h3, h4⟩ := text_ok o v ht.2
    refine ⟨_, by simp only [tyText, h1, h3]; rfl, ?_⟩
    simp only [readTy, readTys, h2, h4]
    rfl
  | .nonZero t, ht => by
    cases t with
    | prim p =>
      rw [textOk] at ht
      exact read_nz ht
    | vec t =>
      rw [textOk] at ht
      obtain ⟨e, h1, h2⟩ := text_ok o t ht
      refine ⟨_, by simp only [tyText, h1]; rfl, ?_⟩
      simp only [readTy, readTys, h2]
      rfl
    | hashSet t =>
      rw [textOk] at ht
      obtain ⟨e, h1, h2⟩ := text_ok o t ht
      refine ⟨_, by simp only [tyText, h1]; rfl, ?_⟩
      simp only [readTy, readTys, h2]
      rfl
    | hashMap k v =>
      rw [textOk, Bool.and_eq_true] at ht
      obtain ⟨e, h1, h2⟩ := text_ok o k ht.1
      obtain ⟨e', h3, h4⟩ := text_ok o v ht.2
      refine ⟨_, by simp only [tyText, h1, h3]; rfl, ?_⟩
      simp only [readTy, readTys, h2, h4]
      rfl
    | _ => simp [textOk] at ht
  | .tuple ts, ht => by
    rw [textOk] at ht
    obtain ⟨es, h1, h2⟩ := texts_ok o ts ht
    refine ⟨_, by simp only [tyText, h1]; rfl, ?_⟩
    simp only [readTy, h2]
    rfl
  | .external path name args, ht => by
    rw [textOk] at ht
    by_cases hc : path = [] ∧ name ∈ sc.generics
    · rw [if_pos hc] at ht
      obtain ⟨rfl, hn⟩ := hc
      have : args = [] := by simpa using ht
      subst this
      refine ⟨_, by simp only [tyText, tyTexts]; rfl, ?_⟩
      simp only [low, Build.lowerTy, hn, and_self, if_true, rustOf, List.nil_append, readTy, readTys, List.getLast?_singleton,
        List.dropLast_singleton, localTy]
      rfl
    · rw [if_neg hc, Bool.and_eq_true] at ht
      obtain ⟨es, h1, h2⟩ := texts_ok o args ht.2
      cases hl : sc.look path name with
      | none => simp [hl] at ht
      | some abs =>
        simp only [hl, decide_eq_true_eq] at ht
        have hlen : (rustOfs o (Build.lowerTys sc.look sc.generics args)).length = args.length := by
          rw [show ∀ l, (rustOfs o l).length = l.length from fun l => by
            induction l with
            | nil => rfl
            | cons a l ih => rw [rustOfs, List.length_cons, List.length_cons, ih]]
          exact lowerTys_length sc args
        have hcr : crateNamed sc abs (rustOfs o (Build.lowerTys sc.look sc.generics args)) =
            some (.named abs (rustOfs o (Build.lowerTys sc.look sc.generics args))) := by
          rw [crateNamed, hlen, if_pos ht.1]
        refine ⟨_, by simp only [tyText, h1]; rfl, ?_⟩
        simp only [low, Build.lowerTy, hc, if_false, rustOf, hl, Option.getD_some, readTy, List.getLast?_append,
          List.getLast?_singleton, Option.some_or, List.dropLast_concat, h2, localTy]
        by_cases hp : path = []
        · subst hp
          have hn : name ∉ sc.generics := fun hn => hc ⟨rfl, hn⟩
          simp only [if_true, hn, if_false, hl]
          exact hcr
        · simp only [hp, if_false]
          exact hcr
/-- The texts of types mean those types. -/
theorem texts_ok {sc : Scope} (o : BytesType) : ∀ ts : List Simplify.Ty, textOks o sc ts = true →
    ∃ es, tyTexts o ts = some es ∧ readTys sc es = some (rustOfs o (Build.lowerTys sc.look sc.generics ts))
  | [], _ => ⟨[], rfl, rfl⟩
  | t :: ts, ht => by
    rw [textOks, Bool.and_eq_true] at ht
    obtain ⟨e, h1, h2⟩ := text_ok o t ht.1
    obtain ⟨es, h3, h4⟩ := texts_ok o ts ht.2
    refine ⟨_, by simp only [tyTexts, h1, h3]; rfl, ?_⟩
    simp only [readTys, h2, h4]
    rfl
end

theorem typed_ok {c : Ctx} {o : BytesType} {sc : Scope} (hc : c.opts = o) (hs : c.scope = sc) {t : Simplify.Ty} {e : TyE}
    (h : readTy sc e = some (rustOf o (low sc t))) : typed c ⟨e, t⟩ = some (low sc t) := by
  subst hc hs
  simp only [typed, h, if_true]

end Mabo.Rust
