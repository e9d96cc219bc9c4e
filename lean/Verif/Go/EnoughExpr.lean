import Verif.Go.Needed
/-! Expressions without violations. -/
namespace Mabo.Go
open Mabo.Simplify Mabo.Spec Mabo.Spec.GoRules Mabo.Spec.GoBuild Mabo.Build
open Mabo.Ast (DataType)
open Mabo.Parse (Text)

/-! ### Scopes -/

theorem meaning_cons (y : Text) (m : Meaning) (Γ : GoRules.Scope) (x : Text) :
    meaning ((y, m) :: Γ) x = if y = x then some m else meaning Γ x := by
  by_cases h : y = x <;> simp [meaning, h]

theorem meaning_isSome {Γ : GoRules.Scope} {x : Text} : (meaning Γ x).isSome = true ↔ ∃ m, (x, m) ∈ Γ := by
  constructor
  · intro h
    obtain ⟨m, hm⟩ := Option.isSome_iff_exists.1 h
    exact ⟨m, meaning_mem hm⟩
  · rintro ⟨m, hm⟩
    rw [meaning, Option.isSome_map, List.find?_isSome]
    exact ⟨_, hm, by simp⟩

theorem isSome_cons {y : Text} {m : Meaning} {Γ : GoRules.Scope} {x : Text} (h : (meaning Γ x).isSome = true) :
    (meaning ((y, m) :: Γ) x).isSome = true := by
  rw [meaning_isSome] at h ⊢
  obtain ⟨m', hm⟩ := h
  exact ⟨m', List.mem_cons_of_mem _ hm⟩

/-- Names that are not to be hidden. -/
def Free (y : Text) : Prop := y ∉ predeclaredTypes ∧ y ≠ n "buf" ∧ y ≠ n "mabo"

instance (y : Text) : Decidable (Free y) := inferInstanceAs (Decidable (_ ∧ _))

/-- Predeclared names and the packages are in scope. -/
structure Base (Γ : GoRules.Scope) : Prop where
  types : ∀ x ∈ predeclaredTypes, meaning Γ x = some .type
  buf : meaning Γ (n "buf") = some .package
  mabo : meaning Γ (n "mabo") = some .package
  values : ∀ x ∈ predeclaredValues, (meaning Γ x).isSome = true

theorem Base.cons {Γ : GoRules.Scope} (h : Base Γ) {y : Text} (hy : Free y) (m : Meaning) : Base ((y, m) :: Γ) where
  types x hx := by
    rw [meaning_cons, if_neg (fun he => hy.1 (by rw [he]; exact hx))]
    exact h.types x hx
  buf := by rw [meaning_cons, if_neg hy.2.1]; exact h.buf
  mabo := by rw [meaning_cons, if_neg hy.2.2]; exact h.mabo
  values x hx := isSome_cons (h.values x hx)

/-! ### Types -/

/-- Nothing in the type is a violation by itself. -/
def Simple : DataType → Prop
  | .prim p => p ≠ .u128 ∧ p ≠ .i128
  | .hashMap k _ => Comparable k
  | .hashSet k => Comparable k
  | .external _ _ _ _ => False
  | _ => True

/-- All parts of the type. -/
def PlainTy (t : DataType) : Prop := ∀ u, Bare u t → Simple u

theorem prim_ok {p : Schema.Prim} (hp : p ≠ .u128 ∧ p ≠ .i128) {Γ : GoRules.Scope} (hΓ : Base Γ) : tyProblems Γ (primTree p) = [] := by
  have key : ∀ x : String, n x ∈ predeclaredTypes → tyProblems Γ (named x) = [] := by
    intro x hx
    simp [named, tyProblems, hΓ.types _ hx, typeNameProblems, tysProblems]
  cases p with
  | u128 => exact absurd rfl hp.1
  | i128 => exact absurd rfl hp.2
  | bytes | bytesRef | boxBytes => rw [primTree, byteSlice, tyProblems]; exact key "byte" (by decide)
  | _ => exact key _ (by decide)

theorem named_ok {Γ : GoRules.Scope} (hΓ : Base Γ) {x : String} (hx : n x ∈ predeclaredTypes) : tyProblems Γ (named x) = [] := by
  simp [named, tyProblems, hΓ.types _ hx, typeNameProblems, tysProblems]

theorem bytes_ok {Γ : GoRules.Scope} (hΓ : Base Γ) : tyProblems Γ byteSlice = [] := by
  rw [byteSlice, tyProblems]; exact named_ok hΓ (by decide)

theorem qual_ok {Γ : GoRules.Scope} (hΓ : Base Γ) (x : Text) {ts : List GTy} (h : tysProblems Γ ts = []) :
    tyProblems Γ (.qual (n "mabo") x ts) = [] := by
  simp [tyProblems, hΓ.mabo, isPackage, demand, h]

mutual
theorem ty_ok {Γ : GoRules.Scope} (hΓ : Base Γ) : ∀ (t : DataType) {g : GTy}, defTree (simplifyType t) = some g → PlainTy t →
    tyProblems Γ g = []
  | .prim q, g, h, hp => by
    rw [simplifyType, defTree] at h
    cases h
    exact prim_ok (hp _ .here) hΓ
  | .vec t, g, h, hp => by
    simp only [simplifyType, defTree, Option.bind_eq_bind, Option.bind_eq_some_iff, Option.pure_def, Option.some.injEq] at h
    obtain ⟨g1, h1, rfl⟩ := h
    rw [tyProblems]; exact ty_ok hΓ t h1 fun u hu => hp u (.vec hu)
  | .option t, g, h, hp => by
    simp only [simplifyType, defTree, Option.bind_eq_bind, Option.bind_eq_some_iff, Option.pure_def, Option.some.injEq] at h
    obtain ⟨g1, h1, rfl⟩ := h
    rw [tyProblems]; exact ty_ok hΓ t h1 fun u hu => hp u (.option hu)
  | .array t k, g, h, hp => by
    simp only [simplifyType, defTree, Option.bind_eq_bind, Option.bind_eq_some_iff, Option.pure_def, Option.some.injEq] at h
    obtain ⟨g1, h1, rfl⟩ := h
    rw [tyProblems]; exact ty_ok hΓ t h1 fun u hu => hp u (.array hu)
  | .hashSet t, g, h, hp => by
    simp only [simplifyType, defTree, Option.bind_eq_bind, Option.bind_eq_some_iff, Option.pure_def, Option.some.injEq] at h
    obtain ⟨g1, h1, rfl⟩ := h
    have := ty_ok hΓ t h1 fun u hu => hp u (.hashSet hu)
    simp [tyProblems, this, demand, (comparable_iff h1).2 (hp _ .here)]
  | .hashMap k v, g, h, hp => by
    simp only [simplifyType, defTree, Option.bind_eq_bind, Option.bind_eq_some_iff, Option.pure_def, Option.some.injEq] at h
    obtain ⟨g1, h1, g2, h2, rfl⟩ := h
    have i1 := ty_ok hΓ k h1 fun u hu => hp u (.hashMapKey hu)
    have i2 := ty_ok hΓ v h2 fun u hu => hp u (.hashMapValue hu)
    simp [tyProblems, i1, i2, demand, (comparable_iff h1).2 (hp _ .here)]
  | .nonZero (.prim q), g, h, hp => by
    rw [simplifyType, simplifyType, defTree] at h
    cases q <;> simp only [nzPrimTree, Option.some.injEq, reduceCtorEq] at h <;> subst h <;> exact qual_ok hΓ _ rfl
  | .nonZero (.vec t), g, h, hp => by
    simp only [simplifyType, defTree, Option.bind_eq_bind, Option.bind_eq_some_iff, Option.pure_def, Option.some.injEq] at h
    obtain ⟨g1, h1, rfl⟩ := h
    have := ty_ok hΓ t h1 fun u hu => hp u (.nonZeroVec hu)
    exact qual_ok hΓ _ (by simp [tysProblems, this])
  | .nonZero (.hashSet t), g, h, hp => by
    simp only [simplifyType, defTree, Option.bind_eq_bind, Option.bind_eq_some_iff, Option.pure_def, Option.some.injEq] at h
    obtain ⟨g1, h1, rfl⟩ := h
    have := ty_ok hΓ t h1 fun u hu => hp u (.nonZeroSet hu)
    exact qual_ok hΓ _ (by simp [tysProblems, this])
  | .nonZero (.hashMap k v), g, h, hp => by
    simp only [simplifyType, defTree, Option.bind_eq_bind, Option.bind_eq_some_iff, Option.pure_def, Option.some.injEq] at h
    obtain ⟨g1, h1, g2, h2, rfl⟩ := h
    have i1 := ty_ok hΓ k h1 fun u hu => hp u (.nonZeroKey hu)
    have i2 := ty_ok hΓ v h2 fun u hu => hp u (.nonZeroValue hu)
    exact qual_ok hΓ _ (by simp [tysProblems, i1, i2])
  | .nonZero (.option _), g, h, _ | .nonZero (.nonZero _), g, h, _ | .nonZero (.tuple _ _), g, h, _ | .nonZero (.array _ _), g, h, _
  | .nonZero (.external _ _ _ _), g, h, _ => by simp [simplifyType, defTree] at h
  | .tuple ts tr, g, h, hp => by
    simp only [simplifyType, defTree, Option.bind_eq_bind, Option.bind_eq_some_iff, Option.pure_def, Option.some.injEq] at h
    obtain ⟨gs, h1, rfl⟩ := h
    exact qual_ok hΓ _ (tys_ok hΓ ts h1 fun t ht u hu => hp u (.tuple ht hu))
  | .external path x ts tr, g, h, hp => (hp _ .here).elim
theorem tys_ok {Γ : GoRules.Scope} (hΓ : Base Γ) : ∀ (ts : List DataType) {gs : List GTy}, defTrees (simplifyTypes ts) = some gs →
    (∀ t ∈ ts, PlainTy t) → tysProblems Γ gs = []
  | [], gs, h, _ => by cases h; rfl
  | t :: ts, gs, h, hp => by
    rw [simplifyTypes, defTrees] at h
    simp only [Option.bind_eq_bind, Option.bind_eq_some_iff, Option.pure_def, Option.some.injEq] at h
    obtain ⟨g, hg, gs', hgs, rfl⟩ := h
    have i1 := ty_ok hΓ t hg (hp t List.mem_cons_self)
    have i2 := tys_ok hΓ ts hgs fun t ht => hp t (List.mem_cons_of_mem _ ht)
    simp [tysProblems, i1, i2]
end

/-! ### Expressions -/

/-- What has to hold for a type whose values are encoded. -/
def Inner : DataType → Prop
  | .prim _ => True
  | .vec t | .hashSet t | .option t | .array t _ => PlainTy t
  | .hashMap k v => PlainTy k ∧ PlainTy v
  | .nonZero (.prim _) => True
  | .nonZero (.vec t) | .nonZero (.hashSet t) => PlainTy t
  | .nonZero (.hashMap k v) => PlainTy k ∧ PlainTy v
  | .nonZero _ => True
  | .tuple _ _ => True
  | .external _ _ _ _ => False

theorem PlainTy.inner : ∀ {t : DataType}, PlainTy t → Inner t
  | .prim _, _ => trivial
  | .vec _, h => fun u hu => h u (.vec hu)
  | .hashSet _, h => fun u hu => h u (.hashSet hu)
  | .option _, h => fun u hu => h u (.option hu)
  | .array _ _, h => fun u hu => h u (.array hu)
  | .hashMap _ _, h => ⟨fun u hu => h u (.hashMapKey hu), fun u hu => h u (.hashMapValue hu)⟩
  | .nonZero (.prim _), _ => trivial
  | .nonZero (.vec _), h => fun u hu => h u (.nonZeroVec hu)
  | .nonZero (.hashSet _), h => fun u hu => h u (.nonZeroSet hu)
  | .nonZero (.hashMap _ _), h => ⟨fun u hu => h u (.nonZeroKey hu), fun u hu => h u (.nonZeroValue hu)⟩
  | .nonZero (.option _), _ | .nonZero (.nonZero _), _ | .nonZero (.tuple _ _), _ | .nonZero (.array _ _), _
  | .nonZero (.external _ _ _ _), _ => trivial
  | .tuple _ _, _ => trivial
  | .external _ _ _ _, h => h _ .here

/-- There are no tuples. -/
def NoTuple (t : DataType) : Prop := ∀ ts tr, ¬ OwnPiece (.tuple ts tr) t

section
variable {ds : List Decl}

theorem buf_ok {Γ : GoRules.Scope} (hΓ : Base Γ) (x : Text) : exprProblems ds Γ (buf x) = [] := by
  simp [buf, exprProblems, selProblems, membersOf, hΓ.buf, demand]

theorem buf_count {Γ : GoRules.Scope} (hΓ : Base Γ) (x : Text) (es : List Expr) : valueCount ds Γ (.call (buf x) es) = none := by
  simp [buf, valueCount, membersOf, hΓ.buf]

theorem inst_ok {Γ : GoRules.Scope} (hΓ : Base Γ) (x : Text) {ts : List GTy} (h : tysProblems Γ ts = []) :
    exprProblems ds Γ (.inst (buf x) ts) = [] := by
  rw [exprProblems, buf_ok hΓ, h]; rfl

theorem var_ok {Γ : GoRules.Scope} {x : String} (h : (meaning Γ (n x)).isSome = true) : exprProblems ds Γ (var x) = [] := by
  simp [var, exprProblems, h, demand]

/-- The scope of `func(w []byte, x T)`. -/
theorem encScope {Γ : GoRules.Scope} (hΓ : Base Γ) {x : String} (hx : x = "v" ∨ x = "k") (g : GTy) :
    Base (GoRules.bind [(n "w", byteSlice), (n x, g)] Γ) ∧
    (meaning (GoRules.bind [(n "w", byteSlice), (n x, g)] Γ) (n "w")).isSome = true ∧
    meaning (GoRules.bind [(n "w", byteSlice), (n x, g)] Γ) (n x) = some (.variable g) := by
  have h1 : n "w" ≠ n x := by rcases hx with rfl | rfl <;> decide
  refine ⟨(hΓ.cons (y := n x) ?_ _).cons (by decide) _, ?_, ?_⟩
  · rcases hx with rfl | rfl <;> decide
  · simp [GoRules.bind, meaning_cons]
  · simp [GoRules.bind, meaning_cons, h1]

theorem encFunc_ok {Γ : GoRules.Scope} (hΓ : Base Γ) {x : String} (hx : x = "v" ∨ x = "k") {g : GTy} (hg : tyProblems Γ g = [])
    {y : Expr} (hy : exprProblems ds (GoRules.bind [(n "w", byteSlice), (n x, g)] Γ) y = [])
    (hc : valueCount ds (GoRules.bind [(n "w", byteSlice), (n x, g)] Γ) y = none) : exprProblems ds Γ (encFunc x g y) = [] := by
  have h1 : namesOk [n "w", n x] = [] := by rcases hx with rfl | rfl <;> decide
  simp [encFunc, exprProblems, h1, tysProblems, bytes_ok hΓ, hg, returns, stmtsProblems, stmtProblems, exprsProblems, hy,
    returnProblems, hc, demand]

theorem sizeScope {Γ : GoRules.Scope} (hΓ : Base Γ) {x : String} (hx : x = "v" ∨ x = "k") (g : GTy) :
    Base (GoRules.bind [(n x, g)] Γ) ∧ meaning (GoRules.bind [(n x, g)] Γ) (n x) = some (.variable g) := by
  refine ⟨hΓ.cons (y := n x) ?_ _, ?_⟩
  · rcases hx with rfl | rfl <;> decide
  · simp [GoRules.bind, meaning_cons]

theorem sizeFunc_ok {Γ : GoRules.Scope} (hΓ : Base Γ) {x : String} (hx : x = "v" ∨ x = "k") {g : GTy} (hg : tyProblems Γ g = [])
    {y : Expr} (hy : exprProblems ds (GoRules.bind [(n x, g)] Γ) y = [])
    (hc : valueCount ds (GoRules.bind [(n x, g)] Γ) y = none) : exprProblems ds Γ (sizeFunc x g y) = [] := by
  have h1 : namesOk [n x] = [] := by rcases hx with rfl | rfl <;> decide
  have h2 : tyProblems Γ (named "int") = [] := named_ok hΓ (by decide)
  simp [sizeFunc, exprProblems, h1, h2, tysProblems, hg, returns, stmtsProblems, stmtProblems, exprsProblems, hy,
    returnProblems, hc, demand]

theorem decScope {Γ : GoRules.Scope} (hΓ : Base Γ) :
    Base (GoRules.bind [(n "r", byteSlice)] Γ) ∧ (meaning (GoRules.bind [(n "r", byteSlice)] Γ) (n "r")).isSome = true := by
  refine ⟨hΓ.cons (y := n "r") (by decide) _, ?_⟩
  simp [GoRules.bind, meaning_cons]

theorem decFunc_ok {Γ : GoRules.Scope} (hΓ : Base Γ) {g : GTy} (hg : tyProblems Γ g = [])
    {y : Expr} (hy : exprProblems ds (GoRules.bind [(n "r", byteSlice)] Γ) y = [])
    (hc : valueCount ds (GoRules.bind [(n "r", byteSlice)] Γ) y = none) : exprProblems ds Γ (decFunc g y) = [] := by
  have h1 : namesOk [n "r"] = [] := by decide
  have h2 : tyProblems Γ (named "error") = [] := named_ok hΓ (by decide)
  simp [decFunc, decResults, exprProblems, h1, h2, tysProblems, hg, bytes_ok hΓ, returns, stmtsProblems, stmtProblems, exprsProblems,
    hy, returnProblems, hc, demand]

/-- A value of a non-zero type has members that are not known. -/
theorem get_ok {Γ : GoRules.Scope} {t a : DataType} (ht : t = .nonZero a) {g : GTy} (hg : defTree (simplifyType t) = some g)
    {x : String} (hm : meaning Γ (n x) = some (.variable g)) : selProblems ds Γ (n "Get") (var x) = [] := by
  subst ht
  have : ∃ p q ts, g = .qual p q ts := by
    cases a with
    | prim q =>
      rw [simplifyType, simplifyType, defTree] at hg
      cases q <;> simp only [nzPrimTree, Option.some.injEq, reduceCtorEq] at hg <;> exact ⟨_, _, _, hg.symm⟩
    | vec _ | hashSet _ =>
      simp only [simplifyType, defTree, Option.bind_eq_bind, Option.bind_eq_some_iff, Option.pure_def, Option.some.injEq] at hg
      obtain ⟨_, _, rfl⟩ := hg
      exact ⟨_, _, _, rfl⟩
    | hashMap _ _ =>
      simp only [simplifyType, defTree, Option.bind_eq_bind, Option.bind_eq_some_iff, Option.pure_def, Option.some.injEq] at hg
      obtain ⟨_, _, _, _, rfl⟩ := hg
      exact ⟨_, _, _, rfl⟩
    | _ => simp [simplifyType, defTree] at hg
  obtain ⟨p, q, ts, rfl⟩ := this
  simp [var, selProblems, membersOf, hm, members]

theorem noTuple_vec {t} (h : NoTuple (.vec t)) : NoTuple t := fun ts tr ho => h ts tr (.vec ho)
theorem noTuple_hashSet {t} (h : NoTuple (.hashSet t)) : NoTuple t := fun ts tr ho => h ts tr (.hashSet ho)
theorem noTuple_option {t} (h : NoTuple (.option t)) : NoTuple t := fun ts tr ho => h ts tr (.option ho)
theorem noTuple_array {t k} (h : NoTuple (.array t k)) : NoTuple t := fun ts tr ho => h ts tr (.array ho)
theorem noTuple_nonZero {t} (h : NoTuple (.nonZero t)) : NoTuple t := fun ts tr ho => h ts tr (.nonZero ho)
theorem noTuple_key {k v} (h : NoTuple (.hashMap k v)) : NoTuple k := fun ts tr ho => h ts tr (.hashMapKey ho)
theorem noTuple_value {k v} (h : NoTuple (.hashMap k v)) : NoTuple v := fun ts tr ho => h ts tr (.hashMapValue ho)

/-- The argument of `non_zero`. -/
theorem Inner.nonZero {t : DataType} (h : Inner (.nonZero t)) (hz : nzArm (simplifyType t) = true) : Inner t := by
  cases t with
  | prim _ => trivial
  | vec _ | hashSet _ | hashMap _ _ => exact h
  | _ => simp [simplifyType, nzArm] at hz

theorem enc_ok : ∀ (t : DataType) {e x : Expr} {Γ : GoRules.Scope}, encTree e (simplifyType t) = some x → Inner t → NoTuple t →
    Base Γ → (meaning Γ (n "w")).isSome = true → exprProblems ds Γ e = [] →
    (∀ a, t = .nonZero a → selProblems ds Γ (n "Get") e = []) →
    exprProblems ds Γ x = [] ∧ valueCount ds Γ x = none
  | .prim q, e, x, Γ, h, hi, hn, hΓ, hw, he, hs => by
    rw [simplifyType, encTree] at h
    cases h
    refine ⟨?_, buf_count hΓ _ _⟩
    simp only [exprProblems, exprsProblems, buf_ok hΓ, var_ok hw, he]
    rfl
  | .vec t, e, x, Γ, h, hi, hn, hΓ, hw, he, hs => by
    simp only [simplifyType, encTree, Option.bind_eq_bind, Option.bind_eq_some_iff, Option.pure_def, Option.some.injEq] at h
    obtain ⟨g, hg, y, hy, rfl⟩ := h
    obtain ⟨s1, s2, s3⟩ := encScope hΓ (x := "v") (.inl rfl) g
    have hg' := ty_ok hΓ t hg hi
    obtain ⟨i1, i2⟩ := enc_ok t hy (PlainTy.inner hi) (noTuple_vec hn) s1 s2 (var_ok (by rw [s3]; rfl)) fun a ha => get_ok ha hg s3
    refine ⟨?_, rfl⟩
    simp only [exprProblems, exprsProblems, buf_ok hΓ, tysProblems, hg', var_ok hw, he,
      encFunc_ok hΓ (.inl rfl) hg' i1 i2]
    rfl
  | .hashSet t, e, x, Γ, h, hi, hn, hΓ, hw, he, hs => by
    simp only [simplifyType, encTree, Option.bind_eq_bind, Option.bind_eq_some_iff, Option.pure_def, Option.some.injEq] at h
    obtain ⟨g, hg, y, hy, rfl⟩ := h
    obtain ⟨s1, s2, s3⟩ := encScope hΓ (x := "v") (.inl rfl) g
    have hg' := ty_ok hΓ t hg hi
    obtain ⟨i1, i2⟩ := enc_ok t hy (PlainTy.inner hi) (noTuple_hashSet hn) s1 s2 (var_ok (by rw [s3]; rfl)) fun a ha => get_ok ha hg s3
    refine ⟨?_, rfl⟩
    simp only [exprProblems, exprsProblems, buf_ok hΓ, tysProblems, hg', var_ok hw, he,
      encFunc_ok hΓ (.inl rfl) hg' i1 i2]
    rfl
  | .option t, e, x, Γ, h, hi, hn, hΓ, hw, he, hs => by
    simp only [simplifyType, encTree, Option.bind_eq_bind, Option.bind_eq_some_iff, Option.pure_def, Option.some.injEq] at h
    obtain ⟨g, hg, y, hy, rfl⟩ := h
    obtain ⟨s1, s2, s3⟩ := encScope hΓ (x := "v") (.inl rfl) g
    have hg' := ty_ok hΓ t hg hi
    obtain ⟨i1, i2⟩ := enc_ok t hy (PlainTy.inner hi) (noTuple_option hn) s1 s2 (var_ok (by rw [s3]; rfl)) fun a ha => get_ok ha hg s3
    refine ⟨?_, rfl⟩
    simp only [exprProblems, exprsProblems, buf_ok hΓ, tysProblems, hg', var_ok hw, he,
      encFunc_ok hΓ (.inl rfl) hg' i1 i2]
    rfl
  | .array t k, e, x, Γ, h, hi, hn, hΓ, hw, he, hs => by
    rw [simplifyType, encTree] at h
    split at h
    · simp only [Option.bind_eq_bind, Option.bind_eq_some_iff, Option.pure_def, Option.some.injEq] at h
      obtain ⟨g, hg, y, hy, rfl⟩ := h
      obtain ⟨s1, s2, s3⟩ := encScope hΓ (x := "v") (.inl rfl) g
      have hg' := ty_ok hΓ t hg hi
      obtain ⟨i1, i2⟩ := enc_ok t hy (PlainTy.inner hi) (noTuple_array hn) s1 s2 (var_ok (by rw [s3]; rfl)) fun a ha => get_ok ha hg s3
      refine ⟨?_, rfl⟩
      simp only [exprProblems, exprsProblems, buf_ok hΓ, tysProblems, hg', var_ok hw, he, encFunc_ok hΓ (.inl rfl) hg' i1 i2]
      rfl
    · cases h
  | .hashMap k v, e, x, Γ, h, hi, hn, hΓ, hw, he, hs => by
    simp only [simplifyType, encTree, Option.bind_eq_bind, Option.bind_eq_some_iff, Option.pure_def, Option.some.injEq] at h
    obtain ⟨gk, hgk, gv, hgv, y, hy, y', hy', rfl⟩ := h
    obtain ⟨s1, s2, s3⟩ := encScope hΓ (x := "k") (.inr rfl) gk
    obtain ⟨s4, s5, s6⟩ := encScope hΓ (x := "v") (.inl rfl) gv
    have hk := ty_ok hΓ k hgk hi.1
    have hv := ty_ok hΓ v hgv hi.2
    obtain ⟨i1, i2⟩ := enc_ok k hy (PlainTy.inner hi.1) (noTuple_key hn) s1 s2 (var_ok (by rw [s3]; rfl)) fun a ha => get_ok ha hgk s3
    obtain ⟨i3, i4⟩ := enc_ok v hy' (PlainTy.inner hi.2) (noTuple_value hn) s4 s5 (var_ok (by rw [s6]; rfl)) fun a ha => get_ok ha hgv s6
    refine ⟨?_, rfl⟩
    simp only [exprProblems, exprsProblems, buf_ok hΓ, tysProblems, hk, hv,
      var_ok hw, he, encFunc_ok hΓ (.inr rfl) hk i1 i2, encFunc_ok hΓ (.inl rfl) hv i3 i4]
    rfl
  | .nonZero t, e, x, Γ, h, hi, hn, hΓ, hw, he, hs => by
    rw [simplifyType, encTree] at h
    split at h
    · rename_i hz
      refine enc_ok t h (hi.nonZero hz) (noTuple_nonZero hn) hΓ hw ?_ fun a ha => rfl
      simp only [exprProblems, exprsProblems, he, hs t rfl]
      rfl
    · cases h
  | .tuple ts tr, e, x, Γ, h, hi, hn, hΓ, hw, he, hs => absurd .here (hn ts tr)
  | .external _ _ _ _, e, x, Γ, h, hi, hn, hΓ, hw, he, hs => hi.elim

theorem size_ok : ∀ (t : DataType) {e x : Expr} {Γ : GoRules.Scope}, sizeTree e (simplifyType t) = some x → Inner t → NoTuple t →
    Base Γ → exprProblems ds Γ e = [] → (∀ a, t = .nonZero a → selProblems ds Γ (n "Get") e = []) →
    exprProblems ds Γ x = [] ∧ valueCount ds Γ x = none
  | .prim q, e, x, Γ, h, hi, hn, hΓ, he, hs => by
    rw [simplifyType, sizeTree] at h
    cases h
    refine ⟨?_, buf_count hΓ _ _⟩
    simp only [exprProblems, exprsProblems, buf_ok hΓ, he]
    rfl
  | .vec t, e, x, Γ, h, hi, hn, hΓ, he, hs => by
    simp only [simplifyType, sizeTree, Option.bind_eq_bind, Option.bind_eq_some_iff, Option.pure_def, Option.some.injEq] at h
    obtain ⟨g, hg, y, hy, rfl⟩ := h
    obtain ⟨s1, s3⟩ := sizeScope hΓ (x := "v") (.inl rfl) g
    have hg' := ty_ok hΓ t hg hi
    obtain ⟨i1, i2⟩ := size_ok t hy (PlainTy.inner hi) (noTuple_vec hn) s1 (var_ok (by rw [s3]; rfl)) fun a ha => get_ok ha hg s3
    refine ⟨?_, rfl⟩
    simp only [exprProblems, exprsProblems, buf_ok hΓ, tysProblems, hg', he,
      sizeFunc_ok hΓ (.inl rfl) hg' i1 i2]
    rfl
  | .hashSet t, e, x, Γ, h, hi, hn, hΓ, he, hs => by
    simp only [simplifyType, sizeTree, Option.bind_eq_bind, Option.bind_eq_some_iff, Option.pure_def, Option.some.injEq] at h
    obtain ⟨g, hg, y, hy, rfl⟩ := h
    obtain ⟨s1, s3⟩ := sizeScope hΓ (x := "v") (.inl rfl) g
    have hg' := ty_ok hΓ t hg hi
    obtain ⟨i1, i2⟩ := size_ok t hy (PlainTy.inner hi) (noTuple_hashSet hn) s1 (var_ok (by rw [s3]; rfl)) fun a ha => get_ok ha hg s3
    refine ⟨?_, rfl⟩
    simp only [exprProblems, exprsProblems, buf_ok hΓ, tysProblems, hg', he,
      sizeFunc_ok hΓ (.inl rfl) hg' i1 i2]
    rfl
  | .option t, e, x, Γ, h, hi, hn, hΓ, he, hs => by
    simp only [simplifyType, sizeTree, Option.bind_eq_bind, Option.bind_eq_some_iff, Option.pure_def, Option.some.injEq] at h
    obtain ⟨g, hg, y, hy, rfl⟩ := h
    obtain ⟨s1, s3⟩ := sizeScope hΓ (x := "v") (.inl rfl) g
    have hg' := ty_ok hΓ t hg hi
    obtain ⟨i1, i2⟩ := size_ok t hy (PlainTy.inner hi) (noTuple_option hn) s1 (var_ok (by rw [s3]; rfl)) fun a ha => get_ok ha hg s3
    refine ⟨?_, rfl⟩
    simp only [exprProblems, exprsProblems, buf_ok hΓ, tysProblems, hg', he,
      sizeFunc_ok hΓ (.inl rfl) hg' i1 i2]
    rfl
  | .array t k, e, x, Γ, h, hi, hn, hΓ, he, hs => by
    rw [simplifyType, sizeTree] at h
    split at h
    · simp only [Option.bind_eq_bind, Option.bind_eq_some_iff, Option.pure_def, Option.some.injEq] at h
      obtain ⟨g, hg, y, hy, rfl⟩ := h
      obtain ⟨s1, s3⟩ := sizeScope hΓ (x := "v") (.inl rfl) g
      have hg' := ty_ok hΓ t hg hi
      obtain ⟨i1, i2⟩ := size_ok t hy (PlainTy.inner hi) (noTuple_array hn) s1 (var_ok (by rw [s3]; rfl)) fun a ha => get_ok ha hg s3
      refine ⟨?_, rfl⟩
      simp only [exprProblems, exprsProblems, buf_ok hΓ, tysProblems, hg', he, sizeFunc_ok hΓ (.inl rfl) hg' i1 i2]
      rfl
    · cases h
  | .hashMap k v, e, x, Γ, h, hi, hn, hΓ, he, hs => by
    simp only [simplifyType, sizeTree, Option.bind_eq_bind, Option.bind_eq_some_iff, Option.pure_def, Option.some.injEq] at h
    obtain ⟨gk, hgk, gv, hgv, y, hy, y', hy', rfl⟩ := h
    obtain ⟨s1, s3⟩ := sizeScope hΓ (x := "k") (.inr rfl) gk
    obtain ⟨s4, s6⟩ := sizeScope hΓ (x := "v") (.inl rfl) gv
    have hk := ty_ok hΓ k hgk hi.1
    have hv := ty_ok hΓ v hgv hi.2
    obtain ⟨i1, i2⟩ := size_ok k hy (PlainTy.inner hi.1) (noTuple_key hn) s1 (var_ok (by rw [s3]; rfl)) fun a ha => get_ok ha hgk s3
    obtain ⟨i3, i4⟩ := size_ok v hy' (PlainTy.inner hi.2) (noTuple_value hn) s4 (var_ok (by rw [s6]; rfl)) fun a ha => get_ok ha hgv s6
    refine ⟨?_, rfl⟩
    simp only [exprProblems, exprsProblems, buf_ok hΓ, tysProblems, hk, hv,
      he, sizeFunc_ok hΓ (.inr rfl) hk i1 i2, sizeFunc_ok hΓ (.inl rfl) hv i3 i4]
    rfl
  | .nonZero t, e, x, Γ, h, hi, hn, hΓ, he, hs => by
    rw [simplifyType, sizeTree] at h
    split at h
    · rename_i hz
      refine size_ok t h (hi.nonZero hz) (noTuple_nonZero hn) hΓ ?_ fun a ha => rfl
      simp only [exprProblems, exprsProblems, he, hs t rfl]
      rfl
    · cases h
  | .tuple ts tr, e, x, Γ, h, hi, hn, hΓ, he, hs => absurd .here (hn ts tr)
  | .external _ _ _ _, e, x, Γ, h, hi, hn, hΓ, he, hs => hi.elim

theorem decSingle_ok {Γ : GoRules.Scope} (hΓ : Base Γ) (hr : (meaning Γ (n "r")).isSome = true) {fn : Text} {g : Option GTy}
    {e : Option Expr} {x : Expr} (h : decSingleTree fn g e = some x) (hg : ∀ t, g = some t → tyProblems Γ t = [])
    (he : ∀ y, e = some y → exprProblems ds (GoRules.bind [(n "r", byteSlice)] Γ) y = [] ∧
      valueCount ds (GoRules.bind [(n "r", byteSlice)] Γ) y = none) :
    exprProblems ds Γ x = [] ∧ valueCount ds Γ x = none := by
  simp only [decSingleTree, Option.bind_eq_bind, Option.bind_eq_some_iff, Option.pure_def, Option.some.injEq] at h
  obtain ⟨t, ht, y, hy, rfl⟩ := h
  refine ⟨?_, rfl⟩
  simp only [exprProblems, exprsProblems, buf_ok hΓ, tysProblems, hg t ht, var_ok hr,
    decFunc_ok hΓ (hg t ht) (he y hy).1 (he y hy).2]
  rfl

theorem decPair_ok {Γ : GoRules.Scope} (hΓ : Base Γ) (hr : (meaning Γ (n "r")).isSome = true) {fn : Text} {g g' : Option GTy}
    {e e' : Option Expr} {x : Expr} (h : decPairTree fn g g' e e' = some x) (hg : ∀ t, g = some t → tyProblems Γ t = [])
    (hg' : ∀ t, g' = some t → tyProblems Γ t = [])
    (he : ∀ y, e = some y → exprProblems ds (GoRules.bind [(n "r", byteSlice)] Γ) y = [] ∧
      valueCount ds (GoRules.bind [(n "r", byteSlice)] Γ) y = none)
    (he' : ∀ y, e' = some y → exprProblems ds (GoRules.bind [(n "r", byteSlice)] Γ) y = [] ∧
      valueCount ds (GoRules.bind [(n "r", byteSlice)] Γ) y = none) :
    exprProblems ds Γ x = [] ∧ valueCount ds Γ x = none := by
  simp only [decPairTree, Option.bind_eq_bind, Option.bind_eq_some_iff, Option.pure_def, Option.some.injEq] at h
  obtain ⟨t, ht, t', ht', y, hy, y', hy', rfl⟩ := h
  refine ⟨?_, rfl⟩
  simp only [exprProblems, exprsProblems, buf_ok hΓ, tysProblems, hg t ht, hg' t' ht', var_ok hr,
    decFunc_ok hΓ (hg t ht) (he y hy).1 (he y hy).2, decFunc_ok hΓ (hg' t' ht') (he' y' hy').1 (he' y' hy').2]
  rfl

theorem dec_ok : ∀ (t : DataType) {x : Expr} {Γ : GoRules.Scope}, decTree (simplifyType t) = some x → Inner t → NoTuple t →
    Base Γ → (meaning Γ (n "r")).isSome = true → exprProblems ds Γ x = [] ∧ valueCount ds Γ x = none
  | .prim q, x, Γ, h, hi, hn, hΓ, hr => by
    rw [simplifyType, decTree] at h
    cases h
    refine ⟨?_, buf_count hΓ _ _⟩
    simp only [exprProblems, exprsProblems, buf_ok hΓ, var_ok hr]
    rfl
  | .vec t, x, Γ, h, hi, hn, hΓ, hr => by
    rw [simplifyType, decTree] at h
    obtain ⟨s1, s2⟩ := decScope hΓ
    exact decSingle_ok hΓ hr h (fun g hg => ty_ok hΓ t hg hi) fun y hy => dec_ok t hy (PlainTy.inner hi) (noTuple_vec hn) s1 s2
  | .hashSet t, x, Γ, h, hi, hn, hΓ, hr => by
    rw [simplifyType, decTree] at h
    obtain ⟨s1, s2⟩ := decScope hΓ
    exact decSingle_ok hΓ hr h (fun g hg => ty_ok hΓ t hg hi) fun y hy => dec_ok t hy (PlainTy.inner hi) (noTuple_hashSet hn) s1 s2
  | .option t, x, Γ, h, hi, hn, hΓ, hr => by
    rw [simplifyType, decTree] at h
    obtain ⟨s1, s2⟩ := decScope hΓ
    exact decSingle_ok hΓ hr h (fun g hg => ty_ok hΓ t hg hi) fun y hy => dec_ok t hy (PlainTy.inner hi) (noTuple_option hn) s1 s2
  | .array t k, x, Γ, h, hi, hn, hΓ, hr => by
    rw [simplifyType, decTree] at h
    obtain ⟨s1, s2⟩ := decScope hΓ
    split at h
    · exact decSingle_ok hΓ hr h (fun g hg => ty_ok hΓ t hg hi) fun y hy => dec_ok t hy (PlainTy.inner hi) (noTuple_array hn) s1 s2
    · cases h
  | .hashMap k v, x, Γ, h, hi, hn, hΓ, hr => by
    rw [simplifyType, decTree] at h
    obtain ⟨s1, s2⟩ := decScope hΓ
    exact decPair_ok hΓ hr h (fun g hg => ty_ok hΓ k hg hi.1) (fun g hg => ty_ok hΓ v hg hi.2)
      (fun y hy => dec_ok k hy (PlainTy.inner hi.1) (noTuple_key hn) s1 s2)
      fun y hy => dec_ok v hy (PlainTy.inner hi.2) (noTuple_value hn) s1 s2
  | .nonZero (.prim q), x, Γ, h, hi, hn, hΓ, hr => by
    rw [simplifyType, simplifyType, decTree] at h
    split at h
    · cases h
      refine ⟨?_, buf_count hΓ _ _⟩
      simp only [exprProblems, exprsProblems, buf_ok hΓ, var_ok hr]
      rfl
    · cases h
  | .nonZero (.vec t), x, Γ, h, hi, hn, hΓ, hr => by
    rw [simplifyType, simplifyType, decTree] at h
    obtain ⟨s1, s2⟩ := decScope hΓ
    exact decSingle_ok hΓ hr h (fun g hg => ty_ok hΓ t hg hi)
      fun y hy => dec_ok t hy (PlainTy.inner hi) (noTuple_vec (noTuple_nonZero hn)) s1 s2
  | .nonZero (.hashSet t), x, Γ, h, hi, hn, hΓ, hr => by
    rw [simplifyType, simplifyType, decTree] at h
    obtain ⟨s1, s2⟩ := decScope hΓ
    exact decSingle_ok hΓ hr h (fun g hg => ty_ok hΓ t hg hi)
      fun y hy => dec_ok t hy (PlainTy.inner hi) (noTuple_hashSet (noTuple_nonZero hn)) s1 s2
  | .nonZero (.hashMap k v), x, Γ, h, hi, hn, hΓ, hr => by
    rw [simplifyType, simplifyType, decTree] at h
    obtain ⟨s1, s2⟩ := decScope hΓ
    exact decPair_ok hΓ hr h (fun g hg => ty_ok hΓ k hg hi.1) (fun g hg => ty_ok hΓ v hg hi.2)
      (fun y hy => dec_ok k hy (PlainTy.inner hi.1) (noTuple_key (noTuple_nonZero hn)) s1 s2)
      fun y hy => dec_ok v hy (PlainTy.inner hi.2) (noTuple_value (noTuple_nonZero hn)) s1 s2
  | .nonZero (.option _), x, Γ, h, hi, hn, hΓ, hr | .nonZero (.nonZero _), x, Γ, h, hi, hn, hΓ, hr
  | .nonZero (.tuple _ _), x, Γ, h, hi, hn, hΓ, hr | .nonZero (.array _ _), x, Γ, h, hi, hn, hΓ, hr
  | .nonZero (.external _ _ _ _), x, Γ, h, hi, hn, hΓ, hr => by simp [simplifyType, decTree] at h
  | .tuple ts tr, x, Γ, h, hi, hn, hΓ, hr => absurd .here (hn ts tr)
  | .external _ _ _ _, x, Γ, h, hi, hn, hΓ, hr => hi.elim

end

end Mabo.Go
