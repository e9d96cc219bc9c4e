import Verif.Rust.ItemSem
/-!
The traits `Size` and `Encode` of the whole generated crate: every function compiles, and what it computes is what
`Codegen.size` and `Codegen.enc` say.
-/
namespace Mabo.Rust
open Mabo.Buf Mabo.Codegen Mabo.Spec
open Mabo.Schema (Prim Ty Val wt wtList wtEntries wtTuple wtFields Env FieldKind)
open Mabo.Build (Files)

/-- The number of type parameters of each type of the crate. -/
def arityOf (files : Files) (abs : List String) : Option Nat := (Build.itemAt files abs).map fun it => it.generics.length

theorem scopeAt_arity (files : Files) (m g : List String) : (scopeAt files m g).arity = arityOf files := rfl

/-! ### Traits of the standard types -/

theorem sizeVec_bytes (b : Bytes) : Buf.sizeVec b (fun _ => 1) = sizeBytes b := by
  have : ∀ b : Bytes, sumSizes (fun _ => 1) b = b.length := by
    intro b
    induction b with
    | nil => rfl
    | cons x xs ih => rw [sumSizes, ih, List.length_cons, Nat.add_comm]
  rw [Buf.sizeVec, sizeBytes, this]

theorem encVec_bytes (b : Bytes) : Buf.encVec b (fun _ => 1) (fun x => encU8 x.toBitVec) = encBytes b := by
  have h1 : ∀ b : Bytes, sumSizes (fun _ => 1) b = b.length := by
    intro b
    induction b with
    | nil => rfl
    | cons x xs ih => rw [sumSizes, ih, List.length_cons, Nat.add_comm]
  have h2 : ∀ b : Bytes, encElems (fun x : UInt8 => encU8 x.toBitVec) b = b := by
    intro b
    induction b with
    | nil => rfl
    | cons x xs ih => rw [encElems, ih]; rfl
  rw [Buf.encVec, encBytes, h1, h2]

theorem sumO_ok {f : Val → Option Nat} {g : Val → Nat} : ∀ {xs : List Val}, (∀ x, x ∈ xs → f x = some (g x)) →
    sumO f xs = some (sumSizes g xs)
  | [], _ => rfl
  | x :: xs, h => by
    rw [sumO, h x (List.mem_cons_self ..), sumO_ok fun y hy => h y (List.mem_cons_of_mem _ hy)]
    rfl

theorem catO_ok {f : Val → Option Bytes} {g : Val → Bytes} : ∀ {xs : List Val}, (∀ x, x ∈ xs → f x = some (g x)) →
    catO f xs = some (encElems g xs)
  | [], _ => rfl
  | x :: xs, h => by
    rw [catO, h x (List.mem_cons_self ..), catO_ok fun y hy => h y (List.mem_cons_of_mem _ hy)]
    rfl

theorem wt_inst (env : Env) (t : Ty) (v : Val) : wt env (.inst t) v = wt env t v := by
  rw [wt.eq_def, wt.eq_def env t]
  rfl

theorem size_inst (env : Env) (t : Ty) (v : Val) : Codegen.size env (.inst t) v = Codegen.size env t v := by
  rw [Codegen.size.eq_def, Codegen.size.eq_def env t]
  rfl

theorem wt_opt {env : Env} {t : Ty} {v : Val} (h : wt env (.option t) v = true) :
    v = .none ∨ ∃ x, v = .some x ∧ wt env t x = true := by
  unfold wt at h
  cases v <;> simp [Schema.Ty.strip, Schema.Ty.nzOk, Schema.Ty.isNz] at h
  · exact .inl rfl
  · exact .inr ⟨_, rfl, h⟩

theorem wt_prim {env : Env} {p : Prim} {v : Val} (h : wt env (.prim p) v = true) : p.rep.has v = true := by
  unfold wt at h
  simpa [Schema.Ty.strip, Schema.Ty.nzOk, Schema.Ty.isNz] using h

theorem wt_nzArg {env : Env} {t : Ty} {v : Val} (h : wt env (.nonZero t) v = true) : t.nzArg = true := by
  rw [wt.eq_def] at h
  simp only [Schema.Ty.nzOk, Bool.and_eq_true] at h
  exact h.1.1

/-- The types of the crate have the sizes of the model, for values up to a bound. -/
def ExtSize (o : BytesType) (arity : List String → Option Nat) (env : Env) (B : Nat)
    (ext : List String → List Ty → Val → Option Nat) : Prop :=
  ∀ abs args v, hasEnc o arity (.ext abs args) = true → wt env (.ext abs args) v = true → sizeOf v ≤ B →
    ext abs args v = some (Codegen.size env (.ext abs args) v)

theorem traitSize_ok {o : BytesType} {arity : List String → Option Nat} {env : Env} {B : Nat}
    {ext : List String → List Ty → Val → Option Nat} (he : ExtSize o arity env B ext) :
    ∀ (t : Ty) (v : Val), hasEnc o arity t = true → wt env t v = true → sizeOf v ≤ B →
      traitSize ext t v = some (Codegen.size env t v)
  | .prim p, v, ht, hw, hB => by
    have hs : Codegen.size env (.prim p) v = sizeRep p.rep v := by
      rw [Codegen.size.eq_def]
      rfl
    have hh := wt_prim hw
    rw [hs]
    cases p <;> cases v <;> simp only [traitSize] <;> simp [Prim.rep, Schema.Rep.has] at hh <;>
      simp only [sizeVec_bytes, sizeRep, Prim.rep]
  | .vec t, v, ht, hw, hB => by
    obtain ⟨xs, rfl, hx⟩ := wt_vec hw
    have := sumO_ok (f := traitSize ext t) (g := Codegen.size env t) (xs := xs) fun x hm =>
      traitSize_ok he t x (by rw [hasEnc] at ht; exact ht) (wtList_mem hx x hm) (Nat.le_trans (mem_size hm) hB)
    rw [traitSize, this, Codegen.size.eq_def]
    simp only [Schema.Ty.strip, sizeList_eq]
    rfl
  | .hashSet t, v, ht, hw, hB => by
    obtain ⟨xs, rfl, hx⟩ := wt_set hw
    have := sumO_ok (f := traitSize ext t) (g := Codegen.size env t) (xs := xs) fun x hm =>
      traitSize_ok he t x (by rw [hasEnc] at ht; exact ht) (wtList_mem hx x hm) (Nat.le_trans (mem_size hm) hB)
    rw [traitSize, this, Codegen.size.eq_def]
    simp only [Schema.Ty.strip, sizeList_eq]
    rfl
  | .array t n, v, ht, hw, hB => by
    obtain ⟨xs, rfl, hn, hx⟩ := wt_array hw
    have := sumO_ok (f := traitSize ext t) (g := Codegen.size env t) (xs := xs) fun x hm =>
      traitSize_ok he t x (by rw [hasEnc] at ht; exact ht) (wtList_mem hx x hm) (Nat.le_trans (mem_size hm) hB)
    rw [traitSize, this, Codegen.size.eq_def]
    simp only [Schema.Ty.strip, sizeList_eq, hn]
    rfl
  | .hashMap k w, v, ht, hw, hB => by
    obtain ⟨xs, rfl, hx⟩ := wt_map hw
    rw [hasEnc, Bool.and_eq_true] at ht
    have := sumO_ok (f := entryO fun a b => do some ((← traitSize ext k a) + (← traitSize ext w b))) (g := fun x =>
      match x with
      | .pair a b => Codegen.size env k a + Codegen.size env w b
      | _ => 0) (xs := xs) fun x hm => by
        obtain ⟨a, b, rfl, h1, h2⟩ := wtEntries_mem hx x hm
        have h3 := mem_size hm
        simp only [Val.pair.sizeOf_spec] at h3
        simp only [entryO]
        rw [traitSize_ok he k a ht.1 h1 (by omega), traitSize_ok he w b ht.2 h2 (by omega)]
        rfl
    rw [traitSize, this, Codegen.size.eq_def]
    simp only [Schema.Ty.strip, sizeEntries_eq]
    rfl
  | .option t, v, ht, hw, hB => by
    rcases wt_opt hw with rfl | ⟨x, rfl, hx⟩
    · rw [traitSize, Codegen.size.eq_def]
      simp only [Schema.Ty.strip]
    · have := traitSize_ok he t x (by rw [hasEnc] at ht; exact ht) hx
        (by simp only [Val.some.sizeOf_spec] at hB; omega)
      rw [traitSize, this, Codegen.size.eq_def env (.option t)]
      simp only [Schema.Ty.strip]
      rfl
  | .nonZero t, v, ht, hw, hB => by
    have hn := wt_nzArg hw
    have ht' : hasEnc o arity t = true := by
      cases t <;> simp only [hasEnc, Bool.and_eq_true] at ht ⊢ <;> first | exact ht | exact ht.2
    rw [traitSize, traitSize_ok he t v ht' (wt_nz_inner hn hw) hB, size_nz_inner hn]
  | .ext abs args, v, ht, hw, hB => by
    rw [traitSize]
    exact he abs args v ht hw hB
  | .inst t, v, ht, hw, hB => by
    rw [traitSize, size_inst]
    rw [wt_inst] at hw
    exact traitSize_ok he t v (by rw [hasEnc] at ht; exact ht) hw hB
  | .tuple ts, v, ht, _, _ => by simp [hasEnc] at ht
  | .param i, v, _, hw, _ => by
    rw [wt.eq_def] at hw
    simp [Schema.Ty.strip] at hw

/-- A type with the trait `Encode` is no tuple, so that its position does not matter. -/
theorem enc_inst (env : Env) {o : BytesType} {arity : List String → Option Nat} : ∀ (t : Ty) (v : Val), hasEnc o arity t = true →
    Codegen.enc env false (.inst t) v = Codegen.enc env false t v := by
  intro t v ht
  rw [Codegen.enc.eq_def, Codegen.enc.eq_def env false t]
  rfl

/-- The types of the crate are encoded as in the model, for values up to a bound. -/
def ExtEnc (o : BytesType) (arity : List String → Option Nat) (env : Env) (B : Nat)
    (ext : List String → List Ty → Val → Option Bytes) : Prop :=
  ∀ abs args v, hasEnc o arity (.ext abs args) = true → wt env (.ext abs args) v = true → sizeOf v ≤ B →
    ext abs args v = some (Codegen.enc env false (.ext abs args) v)

theorem traitEnc_ok {o : BytesType} {arity : List String → Option Nat} {env : Env} {B : Nat} {size : Ty → Val → Option Nat}
    {ext : List String → List Ty → Val → Option Bytes} (he : ExtEnc o arity env B ext)
    (hz : ∀ t v, hasEnc o arity t = true → wt env t v = true → sizeOf v ≤ B → size t v = some (Codegen.size env t v)) :
    ∀ (t : Ty) (v : Val), hasEnc o arity t = true → wt env t v = true → sizeOf v ≤ B →
      traitEnc size ext t v = some (Codegen.enc env false t v)
  | .prim p, v, ht, hw, hB => by
    have hs : Codegen.enc env false (.prim p) v = encRep p.rep v := by
      rw [Codegen.enc.eq_def]
      rfl
    have hh := wt_prim hw
    rw [hs]
    cases p <;> cases v <;> simp only [traitEnc] <;> simp [Prim.rep, Schema.Rep.has] at hh <;>
      simp only [encVec_bytes, encRep, Prim.rep]
  | .vec t, v, ht, hw, hB => by
    obtain ⟨xs, rfl, hx⟩ := wt_vec hw
    rw [hasEnc] at ht
    have h1 := sumO_ok (f := size t) (g := Codegen.size env t) (xs := xs) fun x hm =>
      hz t x ht (wtList_mem hx x hm) (Nat.le_trans (mem_size hm) hB)
    have h2 := catO_ok (f := traitEnc size ext t) (g := Codegen.enc env false t) (xs := xs) fun x hm =>
      traitEnc_ok he hz t x ht (wtList_mem hx x hm) (Nat.le_trans (mem_size hm) hB)
    rw [traitEnc, h1, h2, Codegen.enc.eq_def]
    simp only [Schema.Ty.strip, sizeList_eq, encList_eq]
    rfl
  | .hashSet t, v, ht, hw, hB => by
    obtain ⟨xs, rfl, hx⟩ := wt_set hw
    rw [hasEnc] at ht
    have h1 := sumO_ok (f := size t) (g := Codegen.size env t) (xs := xs) fun x hm =>
      hz t x ht (wtList_mem hx x hm) (Nat.le_trans (mem_size hm) hB)
    have h2 := catO_ok (f := traitEnc size ext t) (g := Codegen.enc env false t) (xs := xs) fun x hm =>
      traitEnc_ok he hz t x ht (wtList_mem hx x hm) (Nat.le_trans (mem_size hm) hB)
    rw [traitEnc, h1, h2, Codegen.enc.eq_def]
    simp only [Schema.Ty.strip, sizeList_eq, encList_eq]
    rfl
  | .array t n, v, ht, hw, hB => by
    obtain ⟨xs, rfl, hn, hx⟩ := wt_array hw
    rw [hasEnc] at ht
    have h1 := sumO_ok (f := size t) (g := Codegen.size env t) (xs := xs) fun x hm =>
      hz t x ht (wtList_mem hx x hm) (Nat.le_trans (mem_size hm) hB)
    have h2 := catO_ok (f := traitEnc size ext t) (g := Codegen.enc env false t) (xs := xs) fun x hm =>
      traitEnc_ok he hz t x ht (wtList_mem hx x hm) (Nat.le_trans (mem_size hm) hB)
    rw [traitEnc, h1, h2, Codegen.enc.eq_def]
    simp only [Schema.Ty.strip, sizeList_eq, encList_eq]
    rfl
  | .hashMap k w, v, ht, hw, hB => by
    obtain ⟨xs, rfl, hx⟩ := wt_map hw
    rw [hasEnc, Bool.and_eq_true] at ht
    have h1 := sumO_ok (f := entryO fun a b => do some ((← size k a) + (← size w b))) (g := fun x =>
      match x with
      | .pair a b => Codegen.size env k a + Codegen.size env w b
      | _ => 0) (xs := xs) fun x hm => by
        obtain ⟨a, b, rfl, h1, h2⟩ := wtEntries_mem hx x hm
        have h3 := mem_size hm
        simp only [Val.pair.sizeOf_spec] at h3
        simp only [entryO]
        rw [hz k a ht.1 h1 (by omega), hz w b ht.2 h2 (by omega)]
        rfl
    have h2 := catO_ok (f := entryO fun a b => do some ((← traitEnc size ext k a) ++ (← traitEnc size ext w b))) (g := fun x =>
      match x with
      | .pair a b => Codegen.enc env false k a ++ Codegen.enc env false w b
      | _ => []) (xs := xs) fun x hm => by
        obtain ⟨a, b, rfl, h1, h2⟩ := wtEntries_mem hx x hm
        have h3 := mem_size hm
        simp only [Val.pair.sizeOf_spec] at h3
        simp only [entryO]
        rw [traitEnc_ok he hz k a ht.1 h1 (by omega), traitEnc_ok he hz w b ht.2 h2 (by omega)]
        rfl
    rw [traitEnc, h1, h2, Codegen.enc.eq_def]
    simp only [Schema.Ty.strip, sizeEntries_eq, encEntries_sum]
    rfl
  | .option t, v, ht, hw, hB => by
    rcases wt_opt hw with rfl | ⟨x, rfl, hx⟩
    · rw [traitEnc, Codegen.enc.eq_def]
      simp only [Schema.Ty.strip]
    · have := traitEnc_ok he hz t x (by rw [hasEnc] at ht; exact ht) hx
        (by simp only [Val.some.sizeOf_spec] at hB; omega)
      rw [traitEnc, this, Codegen.enc.eq_def env false (.option t)]
      simp only [Schema.Ty.strip]
      rfl
  | .nonZero t, v, ht, hw, hB => by
    have hn := wt_nzArg hw
    have ht' : hasEnc o arity t = true := by
      cases t <;> simp only [hasEnc, Bool.and_eq_true] at ht ⊢ <;> first | exact ht | exact ht.2
    rw [traitEnc, traitEnc_ok he hz t v ht' (wt_nz_inner hn hw) hB, enc_nz_inner hn]
  | .ext abs args, v, ht, hw, hB => by
    rw [traitEnc]
    exact he abs args v ht hw hB
  | .inst t, v, ht, hw, hB => by
    rw [hasEnc] at ht
    rw [traitEnc, enc_inst env t v ht]
    rw [wt_inst] at hw
    exact traitEnc_ok he hz t v ht hw hB
  | .tuple ts, v, ht, _, _ => by simp [hasEnc] at ht
  | .param i, v, _, hw, _ => by
    rw [wt.eq_def] at hw
    simp [Schema.Ty.strip] at hw

theorem substList_length (args ts : List Ty) : (Ty.substList args ts).length = ts.length := by
  induction ts with
  | nil => rfl
  | cons t ts ih => rw [Ty.substList, List.length_cons, List.length_cons, ih]

theorem hasEncs_get {o : BytesType} {arity : List String → Option Nat} : ∀ {args : List Ty} {i : Nat} {t : Ty},
    hasEncs o arity args = true → args[i]? = some t → hasEnc o arity t = true
  | a :: as, 0, t, h, ht => by
    simp only [List.getElem?_cons_zero, Option.some.injEq] at ht
    rw [hasEncs, Bool.and_eq_true] at h
    exact ht ▸ h.1
  | a :: as, i + 1, t, h, ht => by
    rw [hasEncs, Bool.and_eq_true] at h
    exact hasEncs_get h.2 ht
  | [], _, _, _, ht => by simp at ht

theorem hasEnc_nz {o : BytesType} {arity : List String → Option Nat} {t : Ty} (h : ∀ p, t ≠ .prim p) :
    hasEnc o arity (.nonZero t) = hasEnc o arity t := by
  cases t <;> first | exact absurd rfl (h _) | simp only [hasEnc]

theorem subst_prim {t : Ty} {args : List Ty} {p : Prim} (h : t.subst args = .prim p) : ∃ p, t = .prim p := by
  cases t with
  | prim p => exact ⟨p, rfl⟩
  | param i =>
    simp only [Ty.subst] at h
    cases hi : args[i]? <;> simp [hi] at h
  | _ => simp [Ty.subst] at h

mutual
theorem hasEnc_subst {o : BytesType} {arity : List String → Option Nat} {args : List Ty} (ha : hasEncs o arity args = true) :
    ∀ t : Ty, hasEnc o arity t = true → hasEnc o arity (t.subst args) = true
  | .prim p, h => by rw [Ty.subst]; exact h
  | .vec t, h => by rw [hasEnc] at h; rw [Ty.subst, hasEnc]; exact hasEnc_subst ha t h
  | .hashSet t, h => by rw [hasEnc] at h; rw [Ty.subst, hasEnc]; exact hasEnc_subst ha t h
  | .option t, h => by rw [hasEnc] at h; rw [Ty.subst, hasEnc]; exact hasEnc_subst ha t h
  | .array t n, h => by rw [hasEnc] at h; rw [Ty.subst, hasEnc]; exact hasEnc_subst ha t h
  | .hashMap k v, h => by
    rw [hasEnc, Bool.and_eq_true] at h
    rw [Ty.subst, hasEnc, hasEnc_subst ha k h.1, hasEnc_subst ha v h.2]
    rfl
  | .nonZero t, h => by
    by_cases hp : ∃ p, t = .prim p
    · obtain ⟨p, rfl⟩ := hp
      exact h
    · rw [hasEnc_nz fun p hc => hp ⟨p, hc⟩] at h
      rw [Ty.subst, hasEnc_nz fun p hc => hp (subst_prim hc)]
      exact hasEnc_subst ha t h
  | .ext abs as, h => by
    rw [hasEnc, Bool.and_eq_true, decide_eq_true_eq] at h
    rw [Ty.subst, hasEnc, hasEncs_subst ha as h.2, substList_length, h.1]
    simp
  | .param i, h => by
    simp only [Ty.subst]
    cases hi : args[i]? with
    | none => rfl
    | some t => simp only [hasEnc, hasEncs_get ha hi]
  | .inst t, h => by rw [hasEnc] at h; rw [Ty.subst, hasEnc]; exact hasEnc_subst ha t h
  | .tuple ts, h => by simp [hasEnc] at h
theorem hasEncs_subst {o : BytesType} {arity : List String → Option Nat} {args : List Ty} (ha : hasEncs o arity args = true) :
    ∀ ts : List Ty, hasEncs o arity ts = true → hasEncs o arity (Ty.substList args ts) = true
  | [], _ => rfl
  | t :: ts, h => by
    rw [hasEncs, Bool.and_eq_true] at h
    rw [Ty.substList, hasEncs, hasEnc_subst ha t h.1, hasEncs_subst ha ts h.2]
    rfl
end

/-! ### The crate -/

/-- A value of a type of the crate is a struct or an enum. -/
theorem wt_ext {files : Files} {abs : List String} {args : List Ty} {it : Build.Item} {v : Val}
    (hit : Build.itemAt files abs = some it) (h : wt (Build.crateEnv files) (.ext abs args) v = true) :
    (∃ s vs, it = .struct s ∧ v = .struct vs) ∨ (∃ e i vs, it = .enum e ∧ v = .enum i vs) := by
  rw [wt.eq_def] at h
  have he : Build.crateEnv files abs = some (Build.lowerItem (Build.resolvePath files abs.dropLast) it) := by
    simp only [Build.crateEnv, hit, Option.map_some]
  simp only [Schema.Ty.strip, Bool.and_eq_true] at h
  cases v <;> simp only [he, Bool.false_eq_true, and_false] at h
  · cases it with
    | struct s => exact .inl ⟨s, _, rfl, rfl⟩
    | enum e => simp [Build.lowerItem] at h
  · cases it with
    | struct s => simp [Build.lowerItem] at h
    | enum e => exact .inr ⟨e, _, _, rfl, rfl⟩

theorem at_ctx {files : Files} {o : BytesType} {abs : List String} {it : Build.Item} {ret : RType}
    {vars : List (String × RType × Bool)}
    (h : (itemCtx files o abs it ret vars).find "self" = some (.ref (.own (.ext abs (params it.generics.length))), false)) :
    At (itemCtx files o abs it ret vars) o (scopeAt files abs.dropLast it.generics) it :=
  ⟨rfl, rfl, rfl, rfl, _, _, _, _, rfl, h, rfl⟩

/-- The emitted function `size` compiles and computes the size of the model. -/
theorem runSize_ok {files : Files} {o : BytesType} (hg : CrateGood files o) {abs : List String} {it : Build.Item}
    (hit : Build.itemAt files abs = some it) :
    ∃ m, sizeFn files o abs it = some m ∧ ∀ args W v B, wt (Build.crateEnv files) (.ext abs args) v = true →
      SizeAgree o (arityOf files) (Build.crateEnv files) args B W → sizeOf v ≤ B + 1 →
      runSize (some m) W v = some (Codegen.size (Build.crateEnv files) (.ext abs args) v) := by
  have hgood := (hg abs it hit).2
  have he : Build.crateEnv files abs = some (Build.lowerItem (Build.resolvePath files abs.dropLast) it) := by
    simp only [Build.crateEnv, hit, Option.map_some]
  have hat := at_ctx (files := files) (o := o) (abs := abs) (it := it) (ret := .usize)
    (vars := [("self", .ref (.own (.ext abs (params it.generics.length))), false)]) rfl
  cases it with
  | struct st =>
    obtain ⟨i, h1, h2⟩ := size_struct hgood
    obtain ⟨m, h3, h4⟩ := h2 _ hat
    refine ⟨m, by simp only [sizeFn, sizeImplOf, h1]; exact check_eq h3 rfl, ?_⟩
    intro args W v B hw ha hB
    rcases wt_ext hit hw with ⟨_, vs, _, rfl⟩ | ⟨_, _, _, hc, _⟩
    · simp only [Val.struct.sizeOf_spec] at hB
      obtain ⟨s', h5⟩ := h4 (Build.crateEnv files) abs args W ⟨[], [], [("self", .val (.struct vs))]⟩ vs B he rfl hw ha
        fun x hx => by have := val_mem_size hx; omega
      simp only [runSize, h5]
    · cases hc
  | enum e =>
    obtain ⟨i, h1, h2⟩ := size_enum hgood
    obtain ⟨m, h3, h4⟩ := h2 _ hat
    refine ⟨m, by simp only [sizeFn, sizeImplOf, h1]; exact check_eq h3 rfl, ?_⟩
    intro args W v B hw ha hB
    rcases wt_ext hit hw with ⟨_, _, hc, _⟩ | ⟨_, j, vs, _, rfl⟩
    · cases hc
    · simp only [Val.enum.sizeOf_spec] at hB
      obtain ⟨s', h5⟩ := h4 (Build.crateEnv files) abs args W ⟨[], [], [("self", .val (.enum j vs))]⟩ j vs B he rfl hw ha
        fun x hx => by have := val_mem_size hx; omega
      simp only [runSize, h5]

/-- The emitted function `encode` compiles and writes the bytes of the model. -/
theorem runEnc_ok {files : Files} {o : BytesType} (hg : CrateGood files o) {abs : List String} {it : Build.Item}
    (hit : Build.itemAt files abs = some it) :
    ∃ m, encodeFn files o abs it = some m ∧ ∀ args W v B, wt (Build.crateEnv files) (.ext abs args) v = true →
      Agrees o (arityOf files) (Build.crateEnv files) args B W → sizeOf v ≤ B + 1 →
      runEnc (some m) W v = some (Codegen.enc (Build.crateEnv files) false (.ext abs args) v) := by
  have hgood := (hg abs it hit).2
  have he : Build.crateEnv files abs = some (Build.lowerItem (Build.resolvePath files abs.dropLast) it) := by
    simp only [Build.crateEnv, hit, Option.map_some]
  have hat := at_ctx (files := files) (o := o) (abs := abs) (it := it) (ret := .unit)
    (vars := [("w", .writer, false), ("self", .ref (.own (.ext abs (params it.generics.length))), false)]) rfl
  have hwr : Writes (encodeCtx files o abs it) := ⟨false, rfl⟩
  cases it with
  | struct st =>
    obtain ⟨i, h1, h2⟩ := encode_struct hgood
    obtain ⟨m, h3, h4⟩ := h2 _ hat hwr
    refine ⟨m, by simp only [encodeFn, encodeImplOf, h1]; exact check_eq h3 rfl, ?_⟩
    intro args W v B hw ha hB
    rcases wt_ext hit hw with ⟨_, vs, _, rfl⟩ | ⟨_, _, _, hc, _⟩
    · simp only [Val.struct.sizeOf_spec] at hB
      obtain ⟨s', h5, h6⟩ := h4 (Build.crateEnv files) abs args W ⟨[], [], [("w", .unit), ("self", .val (.struct vs))]⟩ vs B he
        rfl hw ha fun x hx => by have := val_mem_size hx; omega
      simp only [runEnc, h5, h6, List.nil_append]
    · cases hc
  | enum e =>
    obtain ⟨i, h1, h2⟩ := encode_enum hgood
    obtain ⟨m, h3, h4⟩ := h2 _ hat hwr
    refine ⟨m, by simp only [encodeFn, encodeImplOf, h1]; exact check_eq h3 rfl, ?_⟩
    intro args W v B hw ha hB
    rcases wt_ext hit hw with ⟨_, _, hc, _⟩ | ⟨_, j, vs, _, rfl⟩
    · cases hc
    · simp only [Val.enum.sizeOf_spec] at hB
      obtain ⟨s', h5, h6⟩ := h4 (Build.crateEnv files) abs args W ⟨[], [], [("w", .unit), ("self", .val (.enum j vs))]⟩ j vs B he
        rfl hw ha fun x hx => by have := val_mem_size hx; omega
      simp only [runEnc, h5, h6, List.nil_append]

theorem val_pos (v : Val) : 1 ≤ sizeOf v := by cases v <;> simp <;> omega

/-- The traits of the crate for values up to a size. -/
theorem world_ok {files : Files} {o : BytesType} (hg : CrateGood files o) : ∀ (n : Nat) (t : Ty) (v : Val),
    hasEnc o (arityOf files) t = true → wt (Build.crateEnv files) t v = true → sizeOf v ≤ n →
    (world files o n).size t v = some (Codegen.size (Build.crateEnv files) t v) ∧
      (world files o n).enc t v = some (Codegen.enc (Build.crateEnv files) false t v)
  | 0, t, v, _, _, hn => absurd (val_pos v) (by omega)
  | n + 1, t, v, ht, hw, hn => by
    have ih : ∀ args, hasEncs o (arityOf files) args = true →
        Agrees o (arityOf files) (Build.crateEnv files) args n ((world files o n).inst args) := fun args ha =>
      ⟨fun t v ht hw hs => (world_ok hg n (t.subst args) v (hasEnc_subst ha t ht) hw hs).1,
        fun t v ht hw hs => (world_ok hg n (t.subst args) v (hasEnc_subst ha t ht) hw hs).2⟩
    have hS : ExtSize o (arityOf files) (Build.crateEnv files) (n + 1) fun abs args v => (Build.itemAt files abs).bind fun it =>
        runSize (sizeFn files o abs it) ((world files o n).inst args) v := by
      intro abs args v ht hw hs
      rw [hasEnc, Bool.and_eq_true, decide_eq_true_eq] at ht
      cases hit : Build.itemAt files abs with
      | none => simp [arityOf, hit] at ht
      | some it =>
        obtain ⟨m, h1, h2⟩ := runSize_ok hg hit
        simp only [hit, Option.bind_some, h1]
        exact h2 args _ v n hw (ih args ht.2).size hs
    have hE : ExtEnc o (arityOf files) (Build.crateEnv files) (n + 1) fun abs args v => (Build.itemAt files abs).bind fun it =>
        runEnc (encodeFn files o abs it) ((world files o n).inst args) v := by
      intro abs args v ht hw hs
      rw [hasEnc, Bool.and_eq_true, decide_eq_true_eq] at ht
      cases hit : Build.itemAt files abs with
      | none => simp [arityOf, hit] at ht
      | some it =>
        obtain ⟨m, h1, h2⟩ := runEnc_ok hg hit
        simp only [hit, Option.bind_some, h1]
        exact h2 args _ v n hw (ih args ht.2) hs
    exact ⟨traitSize_ok hS t v ht hw hn, traitEnc_ok hE (fun t v ht hw hs => traitSize_ok hS t v ht hw hs) t v ht hw hn⟩

end Mabo.Rust
