import Verif.Rust.Layout
/-! Sizes and uses of type parameters by the graph of the definitions. -/
namespace Mabo.Layout
open Mabo.Rust (Rt)

theorem substs_eq (σ : List Rt) : ∀ ts, substs σ ts = ts.map (subst σ)
  | [] => rfl
  | t :: ts => by rw [substs, substs_eq σ ts, List.map_cons]

section
variable {D : Defs} {P : String → Prop}

theorem acc_param (i : Nat) : Acc (Inside D P) (.param i) := .intro _ fun _ h => nomatch h

/-- `Reach u t`: `u` is written in `t` at a place whose value is stored in `t`. -/
inductive Reach (D : Defs) (P : String → Prop) : Rt → Rt → Prop where
  | self {t} : Reach D P t t
  | arg {u n args t} : P n → t ∈ args → Reach D P u t → Reach D P u (.builtin n args)
  | item {u t ts} : t ∈ ts → Reach D P u t → Reach D P u (.tuple ts)
  | element {u t n} : Reach D P u t → Reach D P u (.array t n)
  | slice {u t} : Reach D P u t → Reach D P u (.slice t)
  | named {u abs args k fs f i t} : D abs = some (k, fs) → f ∈ fs → Reach D P (.param i) f → args[i]? = some t →
      Reach D P u t → Reach D P u (.named abs args)

/-- Definition `a` stores a value of the type `b` in place. -/
def Edge (D : Defs) (P : String → Prop) (b a : List String) : Prop :=
  ∃ k fs f args, D a = some (k, fs) ∧ f ∈ fs ∧ Reach D P (.named b args) f

/-- Parameters of the definition that are stored in place. -/
def Held (D : Defs) (P : String → Prop) (a : List String) (i : Nat) : Prop :=
  ∃ k fs f, D a = some (k, fs) ∧ f ∈ fs ∧ Reach D P (.param i) f

/-- Instances of the type have a size if the arguments do that matter for it. -/
def Fine (D : Defs) (P : String → Prop) (a : List String) : Prop :=
  ∀ args, (∀ i t, Held D P a i → args[i]? = some t → Acc (Inside D P) t) → Acc (Inside D P) (.named a args)

mutual
theorem fine_ty (σ : List Rt) : ∀ t : Rt, (∀ b args, Reach D P (.named b args) t → Fine D P b) →
    (∀ i, Reach D P (.param i) t → Acc (Inside D P) (subst σ (.param i))) → Acc (Inside D P) (subst σ t)
  | .builtin n args, hn, hp => by
    rw [subst, substs_eq]
    refine .intro _ fun u hu => ?_
    cases hu with
    | arg hP hm =>
      obtain ⟨t, ht, rfl⟩ := List.mem_map.1 hm
      exact fine_tys σ args t ht (fun b as hr => hn b as (.arg hP ht hr)) fun i hr => hp i (.arg hP ht hr)
  | .tuple ts, hn, hp => by
    rw [subst, substs_eq]
    refine .intro _ fun u hu => ?_
    cases hu with
    | item hm =>
      obtain ⟨t, ht, rfl⟩ := List.mem_map.1 hm
      exact fine_tys σ ts t ht (fun b as hr => hn b as (.item ht hr)) fun i hr => hp i (.item ht hr)
  | .array t n, hn, hp => by
    rw [subst]
    refine .intro _ fun u hu => ?_
    cases hu with
    | element => exact fine_ty σ t (fun b as hr => hn b as (.element hr)) fun i hr => hp i (.element hr)
  | .slice t, hn, hp => by
    rw [subst]
    refine .intro _ fun u hu => ?_
    cases hu with
    | slice => exact fine_ty σ t (fun b as hr => hn b as (.slice hr)) fun i hr => hp i (.slice hr)
  | .named abs args, hn, hp => by
    rw [subst, substs_eq]
    refine hn abs args .self _ fun i t hh ht => ?_
    rw [List.getElem?_map, Option.map_eq_some_iff] at ht
    obtain ⟨a, ha, rfl⟩ := ht
    obtain ⟨k, fs, f, hD, hf, hr⟩ := hh
    exact fine_tys σ args a (List.mem_of_getElem? ha) (fun b as h => hn b as (.named hD hf hr ha h))
      fun j h => hp j (.named hD hf hr ha h)
  | .param i, _, hp => hp i .self
theorem fine_tys (σ : List Rt) : ∀ (ts : List Rt), ∀ t ∈ ts, (∀ b args, Reach D P (.named b args) t → Fine D P b) →
    (∀ i, Reach D P (.param i) t → Acc (Inside D P) (subst σ (.param i))) → Acc (Inside D P) (subst σ t)
  | [], _, h, _, _ => nomatch h
  | u :: us, t, h, hn, hp => by
    by_cases e : t = u
    · rw [e] at hn hp ⊢
      exact fine_ty σ u hn hp
    · exact fine_tys σ us t ((List.mem_cons.1 h).resolve_left e) hn hp
end

/-- No definition stores itself in place, over any number of others: instances have sizes. -/
theorem fine_of_acc {a : List String} (h : Acc (Edge D P) a) : Fine D P a := by
  induction h with
  | intro a _ ih =>
    refine fun args hargs => .intro _ fun u hu => ?_
    cases hu with
    | field hD hf =>
      refine fine_ty args _ (fun b as hr => ih b ⟨_, _, _, as, hD, hf, hr⟩) fun i hr => ?_
      rw [subst, List.getD]
      cases hi : args[i]? with
      | none => exact acc_param i
      | some t => exact hargs i t ⟨_, _, _, hD, hf, hr⟩ hi

/-- Something stored in a type is inside of its instances. -/
theorem inside_of_reach {u t : Rt} (h : Reach D P u t) (σ : List Rt) :
    subst σ u = subst σ t ∨ Relation.TransGen (Inside D P) (subst σ u) (subst σ t) := by
  have step : ∀ {a b c : Rt}, (a = b ∨ Relation.TransGen (Inside D P) a b) → Inside D P b c →
      Relation.TransGen (Inside D P) a c := fun h h' => by
    rcases h with rfl | h
    · exact .single h'
    · exact .tail h h'
  induction h generalizing σ with
  | self => exact .inl rfl
  | arg hP hm _ ih =>
    refine .inr (step (ih σ) ?_)
    rw [subst, substs_eq]
    exact .arg hP (List.mem_map_of_mem hm)
  | item hm _ ih =>
    refine .inr (step (ih σ) ?_)
    rw [subst, substs_eq]
    exact .item (List.mem_map_of_mem hm)
  | element _ ih => exact .inr (step (ih σ) .element)
  | slice _ ih => exact .inr (step (ih σ) .slice)
  | @named u abs args k fs f i t hD hf _ hi _ ih1 ih2 =>
    have h1 := ih1 (args.map (subst σ))
    have e : subst (args.map (subst σ)) (.param i) = subst σ t := by
      rw [subst, List.getD, List.getElem?_map, hi]
      rfl
    rw [e] at h1
    have h2 := step h1 (.field (args := args.map (subst σ)) hD hf)
    refine .inr ?_
    rw [show subst σ (.named abs args) = .named abs (args.map (subst σ)) by rw [subst, substs_eq]]
    rcases ih2 σ with e | h
    · rw [e]
      exact h2
    · exact h.trans h2

theorem acc_of_sized {t : Rt} (h : Acc (Relation.TransGen (Inside D P)) t) :
    ∀ a args, t = .named a args → Acc (Edge D P) a := by
  induction h with
  | intro t _ ih =>
    rintro a args rfl
    refine .intro _ fun b hb => ?_
    obtain ⟨k, fs, f, as, hD, hf, hr⟩ := hb
    have hi : Inside D P (subst args f) (.named a args) := .field hD hf
    have : Relation.TransGen (Inside D P) (subst args (.named b as)) (.named a args) := by
      rcases inside_of_reach hr args with e | h
      · rw [e]
        exact .single hi
      · exact .tail h hi
    exact ih _ this b _ rfl

/-- One instance has a size if and only if no definition stores itself in place. -/
theorem sized_iff {a : List String} : Acc (Inside D P) (.named a (params k)) ↔ Acc (Edge D P) a := by
  refine ⟨fun h => acc_of_sized h.transGen a _ rfl, fun h => fine_of_acc h _ fun i t _ ht => ?_⟩
  have := List.mem_of_getElem? ht
  rw [params, List.mem_map] at this
  obtain ⟨j, _, rfl⟩ := this
  exact acc_param j

/-! ### The graph of the mentions -/

theorem mem_directs {b : List String} : ∀ {ts : List Rt}, b ∈ directs ts ↔ ∃ t ∈ ts, b ∈ direct t
  | [] => by simp [directs]
  | t :: ts => by simp [directs, mem_directs (ts := ts)]

theorem mem_allNames {b : List String} : ∀ {ts : List Rt}, b ∈ allNames ts ↔ ∃ t ∈ ts, b ∈ names t
  | [] => by simp [allNames]
  | t :: ts => by simp [allNames, mem_allNames (ts := ts)]

theorem mem_allParams {i : Nat} : ∀ {ts : List Rt}, i ∈ allParams ts ↔ ∃ t ∈ ts, i ∈ paramsOf t
  | [] => by simp [allParams]
  | t :: ts => by simp [allParams, mem_allParams (ts := ts)]

theorem allKnown_mem : ∀ {ts : List Rt}, AllKnown D ts ↔ ∀ t ∈ ts, Known D t
  | [] => by simp [AllKnown]
  | t :: ts => by simp [AllKnown, allKnown_mem (ts := ts)]

theorem allPlain_mem : ∀ {ts : List Rt}, allPlain ts = true ↔ ∀ t ∈ ts, plain t = true
  | [] => by simp [allPlain]
  | t :: ts => by simp [allPlain, allPlain_mem (ts := ts)]

theorem allDerive_mem : ∀ {ts : List Rt}, allDerive ts = true ↔ ∀ t ∈ ts, canDerive t = true
  | [] => by simp [allDerive]
  | t :: ts => by simp [allDerive, allDerive_mem (ts := ts)]

theorem areKeys_mem : ∀ {ts : List Rt}, areKeys ts = true ↔ ∀ t ∈ ts, isKey t = true
  | [] => by simp [areKeys]
  | t :: ts => by simp [areKeys, areKeys_mem (ts := ts)]

theorem reach_direct {u t : Rt} (h : Reach D inPlace u t) : ∀ b ∈ direct u, b ∈ direct t := by
  induction h with
  | self => exact fun _ h => h
  | arg hP hm _ ih =>
    intro b hb
    rw [direct, if_pos (show _ ∨ _ from hP)]
    exact mem_directs.2 ⟨_, hm, ih b hb⟩
  | item hm _ ih => exact fun b hb => by rw [direct]; exact mem_directs.2 ⟨_, hm, ih b hb⟩
  | element _ ih => exact fun b hb => by rw [direct]; exact ih b hb
  | slice _ ih => exact fun b hb => by rw [direct]; exact ih b hb
  | named _ _ _ hi _ _ ih =>
    intro b hb
    rw [direct]
    exact List.mem_cons_of_mem _ (mem_directs.2 ⟨_, List.mem_of_getElem? hi, ih b hb⟩)

theorem reach_names {u t : Rt} (h : Reach D P u t) : ∀ b ∈ names u, b ∈ names t := by
  induction h with
  | self => exact fun _ h => h
  | arg hP hm _ ih => exact fun b hb => by rw [names]; exact mem_allNames.2 ⟨_, hm, ih b hb⟩
  | item hm _ ih => exact fun b hb => by rw [names]; exact mem_allNames.2 ⟨_, hm, ih b hb⟩
  | element _ ih => exact fun b hb => by rw [names]; exact ih b hb
  | slice _ ih => exact fun b hb => by rw [names]; exact ih b hb
  | named _ _ _ hi _ _ ih =>
    intro b hb
    rw [names]
    exact List.mem_cons_of_mem _ (mem_allNames.2 ⟨_, List.mem_of_getElem? hi, ih b hb⟩)

theorem acc_direct (h : NoDirectCycle D) (a : List String) : Acc (Edge D inPlace) a :=
  (Subrelation.wf (r := DirectMention D) (fun {b a} ⟨k, fs, f, as, hD, hf, hr⟩ =>
    ⟨k, fs, f, hD, hf, reach_direct hr b (by rw [direct]; exact List.mem_cons_self)⟩) h).apply a

theorem acc_names (h : NoCycle D) (a : List String) : Acc (Edge D P) a :=
  (Subrelation.wf (r := Mention D) (fun {b a} ⟨k, fs, f, as, hD, hf, hr⟩ =>
    ⟨k, fs, f, hD, hf, reach_names hr b (by rw [names]; exact List.mem_cons_self)⟩) h).apply a

mutual
/-- Without arguments, what is mentioned directly is stored in place. -/
theorem reach_of_direct {b : List String} : ∀ t : Rt, plain t = true → b ∈ direct t → Reach D inPlace (.named b []) t
  | .builtin n args, hp, hb => by
    rw [plain] at hp
    rw [direct] at hb
    split at hb
    · next hn =>
      obtain ⟨t, ht, hr⟩ := reach_of_directs args hp hb
      exact .arg hn ht hr
    · simp at hb
  | .tuple ts, hp, hb => by
    rw [plain] at hp
    rw [direct] at hb
    obtain ⟨t, ht, hr⟩ := reach_of_directs ts hp hb
    exact .item ht hr
  | .array t _, hp, hb => by
    rw [plain] at hp
    rw [direct] at hb
    exact .element (reach_of_direct t hp hb)
  | .slice t, hp, hb => by
    rw [plain] at hp
    rw [direct] at hb
    exact .slice (reach_of_direct t hp hb)
  | .named abs args, hp, hb => by
    rw [plain, List.isEmpty_iff] at hp
    subst hp
    simp only [direct, directs, List.mem_singleton] at hb
    subst hb
    exact .self
  | .param _, _, hb => by simp [direct] at hb
theorem reach_of_directs {b : List String} : ∀ ts : List Rt, allPlain ts = true → b ∈ directs ts →
    ∃ t ∈ ts, Reach D inPlace (.named b []) t
  | [], _, hb => by simp [directs] at hb
  | t :: ts, hp, hb => by
    rw [allPlain, Bool.and_eq_true] at hp
    rw [directs, List.mem_append] at hb
    rcases hb with hb | hb
    · exact ⟨t, List.mem_cons_self, reach_of_direct t hp.1 hb⟩
    · obtain ⟨u, hu, hr⟩ := reach_of_directs ts hp.2 hb
      exact ⟨u, List.mem_cons_of_mem _ hu, hr⟩
end

/-! ### Instances -/

/-- What is directly inside of a type. -/
def inner (D : Defs) : Rt → List Rt
  | .builtin _ args => args
  | .tuple ts => ts
  | .array t _ => [t]
  | .slice t => [t]
  | .named abs args =>
    match D abs with
    | some (_, fs) => fs.map (subst args)
    | none => []
  | .param _ => []

theorem inner_of {u t : Rt} (h : Inside D P u t) : u ∈ inner D t := by
  cases h with
  | arg _ h => exact h
  | item h => exact h
  | element => exact List.mem_singleton.2 rfl
  | slice => exact List.mem_singleton.2 rfl
  | field hD hf =>
    rw [inner, hD]
    exact List.mem_map_of_mem hf

theorem inside_of {u t : Rt} (h : u ∈ inner D t) : Inside D (fun _ => True) u t := by
  cases t with
  | builtin n args => exact .arg trivial h
  | tuple ts => exact .item h
  | array t n => rw [inner, List.mem_singleton] at h; exact h ▸ .element
  | slice t => rw [inner, List.mem_singleton] at h; exact h ▸ .slice
  | named abs args =>
    rw [inner] at h
    split at h
    · next hD =>
      obtain ⟨f, hf, rfl⟩ := List.mem_map.1 h
      exact .field hD hf
    · simp at h
  | param i => simp [inner] at h

theorem list_union {α : Type} {R : α → α → Prop} : ∀ ts : List α, (∀ t ∈ ts, ∃ L : List α, ∀ u, R t u → u ∈ L) →
    ∃ L : List α, ∀ t ∈ ts, ∀ u, R t u → u ∈ L
  | [], _ => ⟨[], nofun⟩
  | t :: ts, h => by
    obtain ⟨L, hL⟩ := h t List.mem_cons_self
    obtain ⟨M, hM⟩ := list_union ts fun t ht => h t (List.mem_cons_of_mem _ ht)
    refine ⟨L ++ M, fun u hu v hv => List.mem_append.2 ?_⟩
    rcases List.mem_cons.1 hu with rfl | hu
    · exact .inl (hL v hv)
    · exact .inr (hM u hu v hv)

theorem needs_cases {t v : Rt} (h : Needs D t v) : v = t ∨ ∃ u ∈ inner D t, Needs D u v := by
  induction h with
  | self => exact .inl rfl
  | step _ hi ih =>
    rcases ih with rfl | ⟨u, hu, h⟩
    · exact .inr ⟨_, inner_of hi, .self⟩
    · exact .inr ⟨u, hu, .step h hi⟩

theorem finite_needs {t : Rt} (h : Acc (Inside D (fun _ => True)) t) : ∃ L : List Rt, ∀ u, Needs D t u → u ∈ L := by
  induction h with
  | intro t _ ih =>
    obtain ⟨L, hL⟩ := list_union (R := Needs D) (inner D t) fun u hu => ih u (inside_of hu)
    refine ⟨t :: L, fun v hv => ?_⟩
    rcases needs_cases hv with rfl | ⟨u, hu, h⟩
    · exact List.mem_cons_self
    · exact List.mem_cons_of_mem _ (hL u hu v h)

/-! ### Used parameters -/

/-- All parameters of the definition matter in one of its fields. -/
def AllMatter (D : Defs) (b : List String) : Prop :=
  ∀ k fs, D b = some (k, fs) → ∀ i, i < k → ∃ f ∈ fs, Matters D i f

mutual
theorem matters_ty {i : Nat} : ∀ t : Rt, Known D t → (∀ b ∈ names t, AllMatter D b) → i ∈ paramsOf t → Matters D i t
  | .builtin n args, hk, hn, hi => by
    rw [Known] at hk
    rw [names] at hn
    rw [paramsOf] at hi
    obtain ⟨t, _, ht, hm⟩ := matters_tys args hk hn hi
    exact .arg (List.mem_of_getElem? ht) hm
  | .tuple ts, hk, hn, hi => by
    rw [Known] at hk
    rw [names] at hn
    rw [paramsOf] at hi
    obtain ⟨t, _, ht, hm⟩ := matters_tys ts hk hn hi
    exact .item (List.mem_of_getElem? ht) hm
  | .array t _, hk, hn, hi => by
    rw [Known] at hk
    rw [names] at hn
    rw [paramsOf] at hi
    exact .element (matters_ty t hk hn hi)
  | .slice t, hk, hn, hi => by
    rw [Known] at hk
    rw [names] at hn
    rw [paramsOf] at hi
    exact .slice (matters_ty t hk hn hi)
  | .named abs args, hk, hn, hi => by
    rw [Known] at hk
    rw [names] at hn
    rw [paramsOf] at hi
    obtain ⟨⟨fs, hD⟩, hk⟩ := hk
    obtain ⟨t, j, ht, hm⟩ := matters_tys args hk (fun b hb => hn b (List.mem_cons_of_mem _ hb)) hi
    obtain ⟨f, hf, hu⟩ := hn abs List.mem_cons_self _ _ hD j (List.getElem?_eq_some_iff.1 ht).1
    exact .named hD hf hu ht hm
  | .param j, _, _, hi => by
    rw [paramsOf, List.mem_singleton] at hi
    exact hi ▸ .here
theorem matters_tys {i : Nat} : ∀ ts : List Rt, AllKnown D ts → (∀ b ∈ allNames ts, AllMatter D b) → i ∈ allParams ts →
    ∃ (t : Rt) (j : Nat), ts[j]? = some t ∧ Matters D i t
  | [], _, _, hi => by simp [allParams] at hi
  | t :: ts, hk, hn, hi => by
    rw [AllKnown] at hk
    rw [allNames] at hn
    rw [allParams, List.mem_append] at hi
    rcases hi with hi | hi
    · exact ⟨t, 0, rfl, matters_ty t hk.1 (fun b hb => hn b (List.mem_append_left _ hb)) hi⟩
    · obtain ⟨u, j, hu, hm⟩ := matters_tys ts hk.2 (fun b hb => hn b (List.mem_append_right _ hb)) hi
      exact ⟨u, j + 1, hu, hm⟩
end

theorem allMatter (hc : NoCycle D) (hk : ∀ a k fs f, D a = some (k, fs) → f ∈ fs → Known D f)
    (hm : ∀ a k fs, D a = some (k, fs) → ∀ i, i < k → ∃ f ∈ fs, i ∈ paramsOf f) (a : List String) : AllMatter D a := by
  induction hc.apply a with
  | intro a _ ih =>
    intro k fs hD i hi
    obtain ⟨f, hf, hp⟩ := hm a k fs hD i hi
    exact ⟨f, hf, matters_ty f (hk a k fs f hD hf) (fun b hb => ih b ⟨k, fs, f, hD, hf, hb⟩) hp⟩

/-- What matters is mentioned. -/
theorem mentioned_of_matters {i : Nat} {t : Rt} (h : Matters D i t) : i ∈ paramsOf t := by
  induction h with
  | here => simp [paramsOf]
  | arg ht _ ih => rw [paramsOf]; exact mem_allParams.2 ⟨_, ht, ih⟩
  | item ht _ ih => rw [paramsOf]; exact mem_allParams.2 ⟨_, ht, ih⟩
  | element _ ih => rw [paramsOf]; exact ih
  | slice _ ih => rw [paramsOf]; exact ih
  | named _ _ _ ht _ _ ih => rw [paramsOf]; exact mem_allParams.2 ⟨_, List.mem_of_getElem? ht, ih⟩
end

/-! ### Parts of types -/

mutual
theorem subst_nil : ∀ t : Rt, subst [] t = t
  | .builtin n args => by rw [subst, substs_nil]
  | .tuple ts => by rw [subst, substs_nil]
  | .array t n => by rw [subst, subst_nil]
  | .slice t => by rw [subst, subst_nil]
  | .named abs args => by rw [subst, substs_nil]
  | .param i => rfl
theorem substs_nil : ∀ ts : List Rt, substs [] ts = ts
  | [] => rfl
  | t :: ts => by rw [substs, subst_nil, substs_nil]
end

mutual
theorem subst_closed (σ : List Rt) : ∀ t : Rt, paramsOf t = [] → subst σ t = t
  | .builtin n args, h => by rw [paramsOf] at h; rw [subst, substs_closed σ args h]
  | .tuple ts, h => by rw [paramsOf] at h; rw [subst, substs_closed σ ts h]
  | .array t n, h => by rw [paramsOf] at h; rw [subst, subst_closed σ t h]
  | .slice t, h => by rw [paramsOf] at h; rw [subst, subst_closed σ t h]
  | .named abs args, h => by rw [paramsOf] at h; rw [subst, substs_closed σ args h]
  | .param i, h => by simp [paramsOf] at h
theorem substs_closed (σ : List Rt) : ∀ ts : List Rt, allParams ts = [] → substs σ ts = ts
  | [], _ => rfl
  | t :: ts, h => by
    rw [allParams, List.append_eq_nil_iff] at h
    rw [substs, subst_closed σ t h.1, substs_closed σ ts h.2]
end

mutual
/-- All parts of a type as it is written. -/
def parts : Rt → List Rt
  | .builtin n args => .builtin n args :: partsOf args
  | .tuple ts => .tuple ts :: partsOf ts
  | .array t n => .array t n :: parts t
  | .slice t => .slice t :: parts t
  | .named abs args => [.named abs args]
  | .param i => [.param i]
/-- Of all of them. -/
def partsOf : List Rt → List Rt
  | [] => []
  | t :: ts => parts t ++ partsOf ts
end

theorem parts_self (t : Rt) : t ∈ parts t := by cases t <;> simp [parts]

theorem mem_partsOf {u : Rt} : ∀ {ts : List Rt}, u ∈ partsOf ts ↔ ∃ t ∈ ts, u ∈ parts t
  | [] => by simp [partsOf]
  | t :: ts => by simp [partsOf, mem_partsOf (ts := ts)]

mutual
theorem parts_inner {D : Defs} {P : String → Prop} {u v : Rt} : ∀ {t : Rt}, u ∈ parts t → Inside D P v u → (∀ abs args, u ≠ .named abs args) →
    v ∈ parts t
  | .builtin n args, h, hi, hn => by
    rw [parts] at h ⊢
    rcases List.mem_cons.1 h with rfl | h
    · cases hi with
      | arg _ hm => exact List.mem_cons_of_mem _ (mem_partsOf.2 ⟨v, hm, parts_self v⟩)
    · exact List.mem_cons_of_mem _ (partsOf_inner h hi hn)
  | .tuple ts, h, hi, hn => by
    rw [parts] at h ⊢
    rcases List.mem_cons.1 h with rfl | h
    · cases hi with
      | item hm => exact List.mem_cons_of_mem _ (mem_partsOf.2 ⟨v, hm, parts_self v⟩)
    · exact List.mem_cons_of_mem _ (partsOf_inner h hi hn)
  | .array t n, h, hi, hn => by
    rw [parts] at h ⊢
    rcases List.mem_cons.1 h with rfl | h
    · cases hi with
      | element => exact List.mem_cons_of_mem _ (parts_self v)
    · exact List.mem_cons_of_mem _ (parts_inner h hi hn)
  | .slice t, h, hi, hn => by
    rw [parts] at h ⊢
    rcases List.mem_cons.1 h with rfl | h
    · cases hi with
      | slice => exact List.mem_cons_of_mem _ (parts_self v)
    · exact List.mem_cons_of_mem _ (parts_inner h hi hn)
  | .named abs args, h, hi, hn => by
    rw [parts, List.mem_singleton] at h
    exact absurd h (hn _ _)
  | .param i, h, hi, hn => by
    rw [parts, List.mem_singleton] at h
    subst h
    exact nomatch hi
theorem partsOf_inner {D : Defs} {P : String → Prop} {u v : Rt} : ∀ {ts : List Rt}, u ∈ partsOf ts → Inside D P v u →
    (∀ abs args, u ≠ .named abs args) → v ∈ partsOf ts
  | [], h, _, _ => by simp [partsOf] at h
  | t :: ts, h, hi, hn => by
    rw [partsOf, List.mem_append] at h ⊢
    rcases h with h | h
    · exact .inl (parts_inner h hi hn)
    · exact .inr (partsOf_inner h hi hn)
end
end Mabo.Layout
