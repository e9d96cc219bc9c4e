import Verif.Parser.Comb
/-! Lemmas about parser combinators: what they accept, that they never add input, and that they only depend on their
parts at inputs they reach. -/
namespace Mabo.Parse

/-! ### Running -/

theorem bind_run {α β : Type} (p : P α) (f : α → P β) (s : Text) :
    (p >>= f) s = match p s with | .ok a r => f a r | .back => .back | .cut => .cut := rfl

theorem pure_run {α : Type} (a : α) (s : Text) : (pure a : P α) s = .ok a s := rfl

theorem bind_ok {α β : Type} {p : P α} {f : α → P β} {s : Text} {a : α} {r : Text} (h : p s = .ok a r) :
    (p >>= f) s = f a r := by rw [bind_run, h]

theorem bind_back {α β : Type} {p : P α} {f : α → P β} {s : Text} (h : p s = .back) : (p >>= f) s = .back := by
  rw [bind_run, h]

theorem bind_eq_ok {α β : Type} {p : P α} {f : α → P β} {s : Text} {b : β} {r : Text} (h : (p >>= f) s = .ok b r) :
    ∃ a m, p s = .ok a m ∧ f a m = .ok b r := by
  rw [bind_run] at h
  cases hp : p s with
  | ok a m => rw [hp] at h; exact ⟨a, m, rfl, h⟩
  | back => rw [hp] at h; cases h
  | cut => rw [hp] at h; cases h

theorem pure_eq_ok {α : Type} {a b : α} {s r : Text} (h : (pure a : P α) s = .ok b r) : a = b ∧ s = r := by
  rw [pure_run] at h; injection h with h1 h2; exact ⟨h1, h2⟩

theorem cutErr_ok {α : Type} {p : P α} {s : Text} {a : α} {r : Text} : cutErr p s = .ok a r ↔ p s = .ok a r := by
  unfold cutErr; cases p s <;> simp

theorem opt_some {α : Type} {p : P α} {s : Text} {a : α} {r : Text} (h : p s = .ok a r) : opt p s = .ok (some a) r := by
  simp only [opt, h]

theorem opt_none {α : Type} {p : P α} {s : Text} (h : p s = .back) : opt p s = .ok none s := by
  simp only [opt, h]

theorem opt_eq_ok {α : Type} {p : P α} {s : Text} {o : Option α} {r : Text} (h : opt p s = .ok o r) :
    (∃ a, o = some a ∧ p s = .ok a r) ∨ (o = none ∧ r = s ∧ p s = .back) := by
  unfold opt at h
  cases hp : p s with
  | ok a m => rw [hp] at h; injection h with h1 h2; exact .inl ⟨a, h1.symm, by rw [h2]⟩
  | back => rw [hp] at h; injection h with h1 h2; exact .inr ⟨h1.symm, h2.symm, rfl⟩
  | cut => rw [hp] at h; cases h

theorem alt_left {α : Type} {p q : P α} {s : Text} {a : α} {r : Text} (h : p s = .ok a r) : alt p q s = .ok a r := by
  simp only [alt, h]

theorem alt_right {α : Type} {p q : P α} {s : Text} (h : p s = .back) : alt p q s = q s := by
  simp only [alt, h]

theorem alt_eq_ok {α : Type} {p q : P α} {s : Text} {a : α} {r : Text} (h : alt p q s = .ok a r) :
    p s = .ok a r ∨ (p s = .back ∧ q s = .ok a r) := by
  unfold alt at h
  cases hp : p s with
  | ok b m => rw [hp] at h; exact .inl h
  | back => rw [hp] at h; exact .inr ⟨rfl, h⟩
  | cut => rw [hp] at h; cases h

theorem dropPrefix_append (w s : Text) : dropPrefix w (w ++ s) = some s := by
  induction w with
  | nil => rfl
  | cons c w ih => simp [dropPrefix, ih]

theorem dropPrefix_eq_some {w s r : Text} (h : dropPrefix w s = some r) : s = w ++ r := by
  induction w generalizing s with
  | nil => injection h
  | cons c w ih =>
    cases s with
    | nil => cases h
    | cons d s =>
      rw [dropPrefix] at h
      split at h
      · rename_i e; rw [ih h, e]; rfl
      · cases h

theorem lit_ok (w : String) (s : Text) : lit w (w.toList ++ s) = .ok () s := by
  simp only [lit, dropPrefix_append]

theorem lit_eq_ok {w : String} {s r : Text} {u : Unit} (h : lit w s = .ok u r) : s = w.toList ++ r := by
  unfold lit at h
  cases hd : dropPrefix w.toList s with
  | none => rw [hd] at h; cases h
  | some m => rw [hd] at h; injection h with _ h; rw [← h]; exact dropPrefix_eq_some hd

theorem lit_back_of_head {w : String} {c d : Char} {ws s : Text} (hw : w.toList = c :: ws) (h : d ≠ c) :
    lit w (d :: s) = .back := by
  simp only [lit, hw, dropPrefix, Ne.symm h, if_false]

theorem lit_back_nil {w : String} {c : Char} {ws : Text} (hw : w.toList = c :: ws) : lit w [] = .back := by
  simp only [lit, hw, dropPrefix]

theorem chr_ok (c : Char) (s : Text) : chr c (c :: s) = .ok () s := by simp [chr]

theorem chr_back {c d : Char} (s : Text) (h : d ≠ c) : chr c (d :: s) = .back := by simp [chr, h]

theorem chr_nil (c : Char) : chr c [] = .back := rfl

theorem chr_eq_ok {c : Char} {s r : Text} {u : Unit} (h : chr c s = .ok u r) : s = c :: r := by
  cases s with
  | nil => cases h
  | cons d s =>
    rw [chr] at h
    split at h
    · rename_i e; injection h with _ h; rw [e, h]
    · cases h

theorem oneOf_ok {f : Char → Bool} {c : Char} (h : f c = true) (s : Text) : oneOf f (c :: s) = .ok c s := by
  simp [oneOf, h]

theorem oneOf_back {f : Char → Bool} {c : Char} (h : f c = false) (s : Text) : oneOf f (c :: s) = .back := by
  simp [oneOf, h]

theorem oneOf_eq_ok {f : Char → Bool} {s r : Text} {c : Char} (h : oneOf f s = .ok c r) : s = c :: r ∧ f c = true := by
  cases s with
  | nil => cases h
  | cons d s =>
    rw [oneOf] at h
    split at h
    · rename_i e; injection h with h1 h2; subst h1 h2; exact ⟨rfl, e⟩
    · cases h

/-- The first character, if any, is not in the set. -/
def Stop (f : Char → Bool) (s : Text) : Prop := ∀ c, s.head? = some c → f c = false

theorem stop_nil (f : Char → Bool) : Stop f [] := fun _ h => by cases h
theorem stop_cons {f : Char → Bool} {c : Char} {s : Text} : Stop f (c :: s) ↔ f c = false :=
  ⟨fun h => h c rfl, fun h d hd => by injection hd with hd; rw [← hd]; exact h⟩

theorem takeWhile_append_stop {f : Char → Bool} {w r : Text} (hw : ∀ c ∈ w, f c = true) (hr : Stop f r) :
    (w ++ r).takeWhile f = w ∧ (w ++ r).dropWhile f = r := by
  induction w with
  | nil =>
    cases r with
    | nil => simp
    | cons c r => simp [stop_cons.1 hr]
  | cons c w ih =>
    have h1 := hw c (by simp)
    have ⟨h2, h3⟩ := ih (fun d hd => hw d (by simp [hd]))
    simp [h1, h2, h3]

theorem takeWhile_ok {f : Char → Bool} {w r : Text} {n : Nat} (hw : ∀ c ∈ w, f c = true) (hr : Stop f r)
    (hn : n ≤ w.length) : takeWhile n f (w ++ r) = .ok w r := by
  have ⟨h1, h2⟩ := takeWhile_append_stop hw hr
  rw [takeWhile, h1, h2, if_neg (by omega)]

theorem takeWhile_stop {f : Char → Bool} {r : Text} (hr : Stop f r) : takeWhile 0 f r = .ok [] r :=
  takeWhile_ok (w := []) (by simp) hr (by simp)

theorem takeWhile_back {f : Char → Bool} {w r : Text} {n : Nat} (hw : ∀ c ∈ w, f c = true) (hr : Stop f r)
    (hn : w.length < n) : takeWhile n f (w ++ r) = .back := by
  rw [takeWhile, (takeWhile_append_stop hw hr).1, if_pos hn]

theorem takeWhile_eq_ok {f : Char → Bool} {s w r : Text} {n : Nat} (h : takeWhile n f s = .ok w r) :
    s = w ++ r ∧ (∀ c ∈ w, f c = true) ∧ Stop f r ∧ n ≤ w.length := by
  unfold takeWhile at h
  split at h
  · cases h
  · rename_i hn
    injection h with h1 h2
    subst h1 h2
    refine ⟨(List.takeWhile_append_dropWhile).symm, fun c hc => ?_, fun c hc => ?_, by omega⟩
    · have := List.all_takeWhile (p := f) (l := s)
      exact List.all_eq_true.1 this c hc
    · have h := List.head?_dropWhile_not f s
      rw [hc] at h
      simpa using h

theorem name_ok {hd tl : Char → Bool} {c : Char} {cs r : Text} (h1 : hd c = true) (h2 : ∀ d ∈ cs, tl d = true)
    (hr : Stop tl r) : name hd tl (c :: cs ++ r) = .ok (String.ofList (c :: cs)) r := by
  unfold name
  rw [List.cons_append, bind_ok (oneOf_ok h1 _), bind_ok (takeWhile_ok h2 hr (by omega))]
  rfl

theorem name_back {hd tl : Char → Bool} {s : Text} (h : Stop hd s) : name hd tl s = .back := by
  unfold name
  cases s with
  | nil => rfl
  | cons c s => exact bind_back (oneOf_back (stop_cons.1 h) s)

/-- A name with these first and further characters. -/
def IsName (hd tl : Char → Bool) (n : String) : Prop :=
  ∃ c cs, n.toList = c :: cs ∧ hd c = true ∧ ∀ d ∈ cs, tl d = true

theorem name_print {hd tl : Char → Bool} {n : String} (h : IsName hd tl n) {r : Text} (hr : Stop tl r) :
    name hd tl (n.toList ++ r) = .ok n r := by
  obtain ⟨c, cs, h1, h2, h3⟩ := h
  rw [h1, name_ok h2 h3 hr, ← h1, String.ofList_toList]

theorem name_eq_ok {hd tl : Char → Bool} {s r : Text} {n : String} (h : name hd tl s = .ok n r) :
    s = n.toList ++ r ∧ IsName hd tl n ∧ Stop tl r := by
  unfold name at h
  obtain ⟨c, m, h1, h⟩ := bind_eq_ok h
  obtain ⟨cs, m', h2, h⟩ := bind_eq_ok h
  obtain ⟨rfl, rfl⟩ := pure_eq_ok h
  obtain ⟨rfl, h3⟩ := oneOf_eq_ok h1
  obtain ⟨rfl, h4, h5, _⟩ := takeWhile_eq_ok h2
  refine ⟨by rw [String.toList_ofList]; rfl, ⟨c, cs, by rw [String.toList_ofList], h3, h4⟩, h5⟩

theorem sp_run {α : Type} (p : P α) (s : Text) : sp p s = p (s.dropWhile isSpace) := by
  unfold sp
  exact bind_ok (by rw [space0, takeWhile, if_neg (by omega)])

theorem ws_run {α : Type} (p : P α) (s : Text) : ws p s = p (s.dropWhile isMulti) := by
  unfold ws
  exact bind_ok (by rw [multi0, takeWhile, if_neg (by omega)])

theorem dropWhile_stop {f : Char → Bool} {s : Text} (h : Stop f s) : s.dropWhile f = s := by
  cases s with
  | nil => rfl
  | cons c s => simp [stop_cons.1 h]

theorem ws_stop {α : Type} {p : P α} {s : Text} (h : Stop isMulti s) : ws p s = p s := by
  rw [ws_run, dropWhile_stop h]

theorem sp_stop {α : Type} {p : P α} {s : Text} (h : Stop isSpace s) : sp p s = p s := by
  rw [sp_run, dropWhile_stop h]

theorem ws_skip {α : Type} {p : P α} {c : Char} {s : Text} (h : isMulti c = true) : ws p (c :: s) = ws p s := by
  rw [ws_run, ws_run]; simp [h]

theorem sp_skip {α : Type} {p : P α} {c : Char} {s : Text} (h : isSpace c = true) : sp p (c :: s) = sp p s := by
  rw [sp_run, sp_run]; simp [h]

/-! ### No parser adds input -/

/-- A success leaves at most the input. -/
def Mono {α : Type} (p : P α) : Prop := ∀ s a r, p s = .ok a r → r.length ≤ s.length

theorem mono_bind {α β : Type} {p : P α} {f : α → P β} (hp : Mono p) (hf : ∀ a, Mono (f a)) : Mono (p >>= f) := by
  intro s b r h
  obtain ⟨a, m, h1, h2⟩ := bind_eq_ok h
  have := hp _ _ _ h1
  have := hf a _ _ _ h2
  omega

theorem mono_pure {α : Type} (a : α) : Mono (pure a : P α) := fun s b r h => by
  rw [(pure_eq_ok h).2]; exact Nat.le_refl _

theorem mono_fail {α : Type} : Mono (fail : P α) := fun _ _ _ h => by cases h

theorem mono_cutErr {α : Type} {p : P α} (hp : Mono p) : Mono (cutErr p) := fun s a r h => hp s a r (cutErr_ok.1 h)

theorem mono_opt {α : Type} {p : P α} (hp : Mono p) : Mono (opt p) := fun s o r h => by
  rcases opt_eq_ok h with ⟨a, _, h⟩ | ⟨_, rfl, _⟩
  · exact hp _ _ _ h
  · exact Nat.le_refl _

theorem mono_alt {α : Type} {p q : P α} (hp : Mono p) (hq : Mono q) : Mono (alt p q) := fun s a r h => by
  rcases alt_eq_ok h with h | ⟨_, h⟩
  · exact hp _ _ _ h
  · exact hq _ _ _ h

theorem mono_lit (w : String) : Mono (lit w) := fun s a r h => by rw [lit_eq_ok h, List.length_append]; omega
theorem mono_chr (c : Char) : Mono (chr c) := fun s a r h => by rw [chr_eq_ok h, List.length_cons]; omega
theorem mono_oneOf (f : Char → Bool) : Mono (oneOf f) := fun s a r h => by
  rw [(oneOf_eq_ok h).1, List.length_cons]; omega
theorem mono_takeWhile (n : Nat) (f : Char → Bool) : Mono (takeWhile n f) := fun s a r h => by
  rw [(takeWhile_eq_ok h).1, List.length_append]; omega
theorem mono_name (f g : Char → Bool) : Mono (name f g) := fun s a r h => by
  rw [(name_eq_ok h).1, List.length_append]; omega
theorem mono_sp {α : Type} {p : P α} (hp : Mono p) : Mono (sp p) := mono_bind (mono_takeWhile _ _) fun _ => hp
theorem mono_ws {α : Type} {p : P α} (hp : Mono p) : Mono (ws p) := mono_bind (mono_takeWhile _ _) fun _ => hp
theorem mono_terminated {α β : Type} {p : P α} {q : P β} (hp : Mono p) (hq : Mono q) : Mono (terminated p q) :=
  mono_bind hp fun _ => mono_bind hq fun _ => mono_pure _

theorem mono_manyAux {α : Type} {p : P α} (hp : Mono p) : ∀ n, Mono (manyAux p n)
  | 0 => fun _ _ _ h => by cases h
  | n + 1 => fun s as r h => by
    rw [manyAux] at h
    cases h1 : p s with
    | back => rw [h1] at h; injection h with _ h; rw [h]; exact Nat.le_refl _
    | cut => rw [h1] at h; cases h
    | ok a m =>
      simp only [h1] at h
      split at h
      · cases h
      · cases h2 : manyAux p n m with
        | ok as' m' =>
          rw [h2] at h; injection h with _ h; subst h
          have := hp _ _ _ h1
          have := mono_manyAux hp n _ _ _ h2
          omega
        | back => rw [h2] at h; cases h
        | cut => rw [h2] at h; cases h

theorem mono_many {α : Type} {p : P α} (hp : Mono p) : Mono (many p) := fun s a r h => mono_manyAux hp _ s a r h

theorem mono_many1 {α : Type} {p : P α} (hp : Mono p) : Mono (many1 p) :=
  mono_bind hp fun _ => mono_bind (mono_many hp) fun _ => mono_pure _

theorem mono_separated1 {α β : Type} {p : P α} {q : P β} (hp : Mono p) (hq : Mono q) : Mono (separated1 p q) :=
  mono_bind hp fun _ => mono_bind (mono_many (mono_bind hq fun _ => hp)) fun _ => mono_pure _

theorem punctuateAux_succ {α : Type} (f : P α) (g : P (α × Bool)) (n : Nat) (acc : List α)
    (prev : Option (Text × List α)) (s : Text) : punctuateAux f g (n + 1) acc prev s =
    match f s with
    | .ok a r => if r.length = s.length then .cut else punctuateAux f g n (a :: acc) (some (s, acc)) r
    | .cut => .cut
    | .back =>
      match g s with
      | .ok (a, t) r => .ok ((a :: acc).reverse, t) r
      | .cut => .cut
      | .back =>
        match prev with
        | none => .back
        | some (s', acc') =>
          match g s' with
          | .ok (a, t) r => .ok ((a :: acc').reverse, t) r
          | .back => .back
          | .cut => .cut := by
  cases prev <;> rfl

theorem mono_punctuateAux {α : Type} {f : P α} {g : P (α × Bool)} (hf : Mono f) (hg : Mono g) :
    ∀ n acc prev s a r, (∀ s' acc', prev = some (s', acc') → s.length ≤ s'.length) →
      punctuateAux f g n acc prev s = .ok a r → r.length ≤ s.length ∨ ∃ s' acc', prev = some (s', acc') ∧ r.length ≤ s'.length
  | 0, _, _, _, _, _, _, h => by cases h
  | n + 1, acc, prev, s, a, r, hprev, h => by
    rw [punctuateAux_succ] at h
    cases h1 : f s with
    | cut => rw [h1] at h; cases h
    | ok b m =>
      have hm := hf _ _ _ h1
      simp only [h1] at h
      split at h
      · cases h
      · rcases mono_punctuateAux hf hg n _ _ _ _ _ (fun s' acc' e => by cases e; omega) h
          with h | ⟨s', acc', e, h⟩
        · exact .inl (by omega)
        · cases e; exact .inl (by omega)
    | back =>
      simp only [h1] at h
      cases h2 : g s with
      | cut => rw [h2] at h; cases h
      | ok b m =>
        rw [h2] at h
        injection h with _ h; rw [← h]
        exact .inl (hg _ _ _ h2)
      | back =>
        simp only [h2] at h
        cases prev with
        | none => cases h
        | some q =>
          obtain ⟨s', acc'⟩ := q
          simp only at h
          cases h3 : g s' with
          | cut => rw [h3] at h; cases h
          | back => rw [h3] at h; cases h
          | ok b m =>
            rw [h3] at h
            injection h with _ h; rw [← h]
            exact .inr ⟨s', acc', rfl, hg _ _ _ h3⟩

theorem mono_punctuate {α : Type} {f : P α} {g : P (α × Bool)} (hf : Mono f) (hg : Mono g) : Mono (punctuate f g) :=
  fun s a r h => by
    rcases mono_punctuateAux hf hg _ _ _ _ _ _ (fun _ _ e => by cases e) h with h | ⟨_, _, e, _⟩
    · exact h
    · cases e

theorem mono_commaList {α : Type} {p : P α} (hp : Mono p) : Mono (commaList p) :=
  mono_punctuate (mono_bind hp fun _ => mono_bind (mono_ws (mono_chr _)) fun _ => mono_pure _)
    (mono_bind hp fun _ => mono_bind (mono_opt (mono_ws (mono_chr _))) fun _ => mono_pure _)

theorem mono_surround {α : Type} {o c : Char} {p : P α} (hp : Mono p) : Mono (surround o c p) :=
  mono_bind (mono_chr _) fun _ => mono_cutErr (mono_bind hp fun _ => mono_bind (mono_ws (mono_chr _)) fun _ => mono_pure _)

/-! ### A parser depends on its parts only at inputs it reaches -/

/-- Equal on inputs shorter than `n`. -/
def Agree {α : Type} (n : Nat) (p q : P α) : Prop := ∀ s : Text, s.length < n → p s = q s

theorem agree_refl {α : Type} (n : Nat) (p : P α) : Agree n p p := fun _ _ => rfl

theorem agree_bind {α β : Type} {n : Nat} {p q : P α} {f g : α → P β} (hp : Agree n p q) (hm : Mono p)
    (hf : ∀ a, Agree n (f a) (g a)) : Agree n (p >>= f) (q >>= g) := by
  intro s hs
  rw [bind_run, bind_run, ← hp s hs]
  cases h : p s with
  | ok a r => exact hf a r (by have := hm _ _ _ h; omega)
  | back => rfl
  | cut => rfl

/-- A success consumes something. -/
def Eats {α : Type} (p : P α) : Prop := ∀ s a r, p s = .ok a r → r.length < s.length

theorem eats_mono {α : Type} {p : P α} (h : Eats p) : Mono p := fun s a r e => Nat.le_of_lt (h s a r e)

theorem eats_chr (c : Char) : Eats (chr c) := fun s a r h => by rw [chr_eq_ok h, List.length_cons]; omega
theorem eats_name (f g : Char → Bool) : Eats (name f g) := fun s a r h => by
  have ⟨h1, ⟨c, cs, h2, _⟩, _⟩ := name_eq_ok h
  rw [h1, List.length_append, h2, List.length_cons]; omega
theorem eats_takeWhile {n : Nat} (f : Char → Bool) (hn : 0 < n) : Eats (takeWhile n f) := fun s a r h => by
  have ⟨h1, _, _, h2⟩ := takeWhile_eq_ok h
  rw [h1, List.length_append]; omega
theorem eats_lit {w : String} (hw : w.toList ≠ []) : Eats (lit w) := fun s a r h => by
  have : 0 < w.toList.length := List.length_pos_iff.2 hw
  rw [lit_eq_ok h, List.length_append]; omega
theorem eats_oneOf (f : Char → Bool) : Eats (oneOf f) := fun s a r h => by
  rw [(oneOf_eq_ok h).1, List.length_cons]; omega
theorem eats_bind_left {α β : Type} {p : P α} {f : α → P β} (hp : Eats p) (hf : ∀ a, Mono (f a)) : Eats (p >>= f) := by
  intro s b r h
  obtain ⟨a, m, h1, h2⟩ := bind_eq_ok h
  have := hp _ _ _ h1
  have := hf a _ _ _ h2
  omega
theorem eats_bind_right {α β : Type} {p : P α} {f : α → P β} (hp : Mono p) (hf : ∀ a, Eats (f a)) : Eats (p >>= f) := by
  intro s b r h
  obtain ⟨a, m, h1, h2⟩ := bind_eq_ok h
  have := hp _ _ _ h1
  have := hf a _ _ _ h2
  omega
theorem eats_alt {α : Type} {p q : P α} (hp : Eats p) (hq : Eats q) : Eats (alt p q) := fun s a r h => by
  rcases alt_eq_ok h with h | ⟨_, h⟩
  · exact hp _ _ _ h
  · exact hq _ _ _ h
theorem eats_cutErr {α : Type} {p : P α} (hp : Eats p) : Eats (cutErr p) := fun s a r h => hp s a r (cutErr_ok.1 h)
theorem eats_ws {α : Type} {p : P α} (hp : Eats p) : Eats (ws p) := eats_bind_right (mono_takeWhile _ _) fun _ => hp
theorem eats_sp {α : Type} {p : P α} (hp : Eats p) : Eats (sp p) := eats_bind_right (mono_takeWhile _ _) fun _ => hp
theorem eats_surround {α : Type} {o c : Char} {p : P α} (hp : Mono p) : Eats (surround o c p) :=
  eats_bind_left (eats_chr _) fun _ =>
    mono_cutErr (mono_bind hp fun _ => mono_bind (mono_ws (mono_chr _)) fun _ => mono_pure _)

theorem agree_eats {α β : Type} {n : Nat} {p : P α} {f g : α → P β} (hp : Eats p) (hf : ∀ a, Agree n (f a) (g a)) :
    Agree (n + 1) (p >>= f) (p >>= g) := by
  intro s hs
  rw [bind_run, bind_run]
  cases h : p s with
  | ok a r => exact hf a r (by have := hp _ _ _ h; omega)
  | back => rfl
  | cut => rfl

theorem agree_cutErr {α : Type} {n : Nat} {p q : P α} (h : Agree n p q) : Agree n (cutErr p) (cutErr q) := fun s hs => by
  unfold cutErr; rw [h s hs]

theorem agree_opt {α : Type} {n : Nat} {p q : P α} (h : Agree n p q) : Agree n (opt p) (opt q) := fun s hs => by
  unfold opt; rw [h s hs]

theorem agree_alt {α : Type} {n : Nat} {p q p' q' : P α} (h : Agree n p q) (h' : Agree n p' q') :
    Agree n (alt p p') (alt q q') := fun s hs => by
  unfold alt; rw [h s hs, h' s hs]

theorem agree_sp {α : Type} {n : Nat} {p q : P α} (h : Agree n p q) : Agree n (sp p) (sp q) :=
  agree_bind (agree_refl _ _) (mono_takeWhile _ _) fun _ => h

theorem agree_ws {α : Type} {n : Nat} {p q : P α} (h : Agree n p q) : Agree n (ws p) (ws q) :=
  agree_bind (agree_refl _ _) (mono_takeWhile _ _) fun _ => h

theorem agree_manyAux {α : Type} {n : Nat} {p q : P α} (h : Agree n p q) (hm : Mono p) :
    ∀ k, Agree n (manyAux p k) (manyAux q k)
  | 0 => fun _ _ => rfl
  | k + 1 => fun s hs => by
    rw [manyAux, manyAux, ← h s hs]
    cases h1 : p s with
    | back => rfl
    | cut => rfl
    | ok a r => simp only [agree_manyAux h hm k r (by have := hm _ _ _ h1; omega)]

theorem agree_many {α : Type} {n : Nat} {p q : P α} (h : Agree n p q) (hm : Mono p) : Agree n (many p) (many q) :=
  fun s hs => agree_manyAux h hm _ s hs

theorem agree_punctuateAux {α : Type} {n : Nat} {f f' : P α} {g g' : P (α × Bool)} (hf : Agree n f f') (hm : Mono f)
    (hg : Agree n g g') : ∀ k acc prev s, s.length < n → (∀ s' acc', prev = some (s', acc') → s'.length < n) →
      punctuateAux f g k acc prev s = punctuateAux f' g' k acc prev s
  | 0, _, _, _, _, _ => rfl
  | k + 1, acc, prev, s, hs, hp => by
    rw [punctuateAux_succ, punctuateAux_succ, ← hf s hs, ← hg s hs]
    cases h1 : f s with
    | cut => rfl
    | ok b m =>
      have := hm _ _ _ h1
      simp only [agree_punctuateAux hf hm hg k (b :: acc) (some (s, acc)) m (by omega)
        (fun s' acc' e => by cases e; omega)]
    | back =>
      cases h2 : g s with
      | ok b m => rfl
      | cut => rfl
      | back =>
        cases prev with
        | none => rfl
        | some q => simp only [hg q.1 (hp q.1 q.2 rfl)]

theorem agree_punctuate {α : Type} {n : Nat} {f f' : P α} {g g' : P (α × Bool)} (hf : Agree n f f') (hm : Mono f)
    (hg : Agree n g g') : Agree n (punctuate f g) (punctuate f' g') :=
  fun s hs => agree_punctuateAux hf hm hg _ _ _ s hs (fun _ _ e => by cases e)

theorem agree_commaList {α : Type} {n : Nat} {p q : P α} (h : Agree n p q) (hm : Mono p) :
    Agree n (commaList p) (commaList q) :=
  agree_punctuate (agree_bind h hm fun _ => agree_refl _ _)
    (mono_bind hm fun _ => mono_bind (mono_ws (mono_chr _)) fun _ => mono_pure _)
    (agree_bind h hm fun _ => agree_refl _ _)

theorem agree_surround {α : Type} {n : Nat} {o c : Char} {p q : P α} (h : Agree n p q) (hm : Mono p) :
    Agree (n + 1) (surround o c p) (surround o c q) :=
  agree_eats (eats_chr o) fun _ => agree_cutErr (agree_bind h hm fun _ => agree_refl _ _)

theorem agree_le {α : Type} {n m : Nat} {p q : P α} (h : Agree n p q) (hm : m ≤ n) : Agree m p q :=
  fun s hs => h s (by omega)

/-! ### Unfolding loops -/

theorem manyAux_enough {α : Type} {p : P α} (hp : Eats p) : ∀ n m s, s.length < n → s.length < m →
    manyAux p n s = manyAux p m s
  | 0, _, _, h, _ => by omega
  | _ + 1, 0, _, _, h => by omega
  | n + 1, m + 1, s, h1, h2 => by
    rw [manyAux, manyAux]
    cases h : p s with
    | back => rfl
    | cut => rfl
    | ok a r =>
      have := hp _ _ _ h
      simp only [manyAux_enough hp n m r (by omega) (by omega)]

theorem many_back {α : Type} {p : P α} {s : Text} (h : p s = .back) : many p s = .ok [] s := by
  simp only [many, manyAux, h]

theorem many_ok {α : Type} {p : P α} {s r r' : Text} {a : α} {as : List α} (hp : Eats p) (h : p s = .ok a r)
    (h' : many p r = .ok as r') : many p s = .ok (a :: as) r' := by
  have hl := hp _ _ _ h
  rw [many, manyAux]
  simp only [h]
  rw [if_neg (by omega), manyAux_enough hp s.length (r.length + 1) r (by omega) (by omega)]
  rw [many] at h'
  rw [h']

theorem manyAux_eq_ok {α : Type} {p : P α} : ∀ {n s as r}, manyAux p n s = .ok as r →
    (as = [] ∧ r = s ∧ p s = .back) ∨ ∃ a as' m, as = a :: as' ∧ p s = .ok a m ∧ manyAux p (n - 1) m = .ok as' r
  | 0, _, _, _, h => by cases h
  | n + 1, s, as, r, h => by
    rw [manyAux] at h
    cases h1 : p s with
    | back => rw [h1] at h; injection h with e1 e2; exact .inl ⟨e1.symm, e2.symm, rfl⟩
    | cut => rw [h1] at h; cases h
    | ok a m =>
      simp only [h1] at h
      split at h
      · cases h
      · cases h2 : manyAux p n m with
        | ok as' m' =>
          rw [h2] at h; injection h with e1 e2; subst e1 e2
          exact .inr ⟨a, as', m, rfl, rfl, h2⟩
        | back => rw [h2] at h; cases h
        | cut => rw [h2] at h; cases h

/-- Every value of a repetition comes from the repeated parser. -/
theorem many_forall {α : Type} {p : P α} {Q : α → Prop} (hp : ∀ s a r, p s = .ok a r → Q a) {s : Text} {as : List α}
    {r : Text} (h : many p s = .ok as r) : ∀ a ∈ as, Q a := by
  have : ∀ n s as r, manyAux p n s = .ok as r → ∀ a ∈ as, Q a := by
    intro n
    induction n with
    | zero => intro s as r h; cases h
    | succ n ih =>
      intro s as r h
      rcases manyAux_eq_ok h with ⟨rfl, _⟩ | ⟨a, as', m, rfl, h1, h2⟩
      · simp
      · intro b hb
        rcases List.mem_cons.1 hb with rfl | hb
        · exact hp _ _ _ h1
        · exact ih _ _ _ h2 b hb
  exact this _ s as r h

theorem punctuateAux_forall {α : Type} {f : P α} {g : P (α × Bool)} {Q : α → Prop}
    (hf : ∀ s a r, f s = .ok a r → Q a) (hg : ∀ s a r, g s = .ok a r → Q a.1) :
    ∀ n acc prev s a r, (∀ x ∈ acc, Q x) → (∀ s' acc', prev = some (s', acc') → ∀ x ∈ acc', Q x) →
      punctuateAux f g n acc prev s = .ok a r → a.1 ≠ [] ∧ ∀ x ∈ a.1, Q x
  | 0, _, _, _, _, _, _, _, h => by cases h
  | n + 1, acc, prev, s, a, r, hacc, hprev, h => by
    rw [punctuateAux_succ] at h
    cases h1 : f s with
    | cut => rw [h1] at h; cases h
    | ok b m =>
      simp only [h1] at h
      split at h
      · cases h
      · refine punctuateAux_forall hf hg n _ _ _ _ _ (fun x hx => ?_) (fun s' acc' e => ?_) h
        · rcases List.mem_cons.1 hx with rfl | hx
          · exact hf _ _ _ h1
          · exact hacc x hx
        · injection e with e; injection e with _ e; rw [← e]; exact hacc
    | back =>
      simp only [h1] at h
      have fin : ∀ (acc : List α) (s : Text) (b : α × Bool) m, (∀ x ∈ acc, Q x) → g s = .ok b m →
          ((b.1 :: acc).reverse ≠ [] ∧ ∀ x ∈ (b.1 :: acc).reverse, Q x) := by
        intro acc s b m hacc hb
        refine ⟨by simp, fun x hx => ?_⟩
        rw [List.mem_reverse] at hx
        rcases List.mem_cons.1 hx with rfl | hx
        · exact hg _ _ _ hb
        · exact hacc x hx
      cases h2 : g s with
      | cut => rw [h2] at h; cases h
      | ok b m => rw [h2] at h; injection h with h _; rw [← h]; exact fin acc s b m hacc h2
      | back =>
        simp only [h2] at h
        cases prev with
        | none => cases h
        | some q =>
          obtain ⟨s', acc'⟩ := q
          simp only at h
          cases h3 : g s' with
          | cut => rw [h3] at h; cases h
          | back => rw [h3] at h; cases h
          | ok b m => rw [h3] at h; injection h with h _; rw [← h]; exact fin acc' s' b m (hprev _ _ rfl) h3

/-- Every value of a comma-separated list comes from the element parser, and there is at least one. -/
theorem commaList_forall {α : Type} {p : P α} {Q : α → Prop} (hp : ∀ s a r, p s = .ok a r → Q a) {s : Text}
    {as : List α} {t : Bool} {r : Text} (h : commaList p s = .ok (as, t) r) : as ≠ [] ∧ ∀ a ∈ as, Q a := by
  refine punctuateAux_forall (Q := Q) (fun s a r h => ?_) (fun s a r h => ?_) _ _ _ _ _ _ (by simp)
    (fun _ _ e => by cases e) h
  · obtain ⟨b, m, h1, h⟩ := bind_eq_ok h
    obtain ⟨_, _, _, h⟩ := bind_eq_ok h
    rw [← (pure_eq_ok h).1]
    exact hp _ _ _ h1
  · obtain ⟨b, m, h1, h⟩ := bind_eq_ok h
    obtain ⟨_, _, _, h⟩ := bind_eq_ok h
    rw [← (pure_eq_ok h).1]
    exact hp _ _ _ h1

theorem surround_eq_ok {α : Type} {o c : Char} {p : P α} {s r : Text} {a : α} (h : surround o c p s = .ok a r) :
    ∃ m m', s = o :: m ∧ p m = .ok a m' ∧ ws (chr c) m' = .ok () r := by
  obtain ⟨_, m, h1, h⟩ := bind_eq_ok h
  obtain ⟨b, m', h2, h⟩ := bind_eq_ok (cutErr_ok.1 h)
  obtain ⟨_, m'', h3, h⟩ := bind_eq_ok h
  obtain ⟨rfl, rfl⟩ := pure_eq_ok h
  exact ⟨m, m', chr_eq_ok h1, h2, h3⟩

theorem surround_ok {α : Type} {o c : Char} {p : P α} {s m r : Text} {a : α} (h1 : p s = .ok a m)
    (h2 : ws (chr c) m = .ok () r) : surround o c p (o :: s) = .ok a r := by
  unfold surround
  rw [bind_ok (chr_ok o s), cutErr_ok, bind_ok h1, bind_ok h2]; rfl

theorem surround_back {α : Type} {o c d : Char} {p : P α} {s : Text} (h : d ≠ o) : surround o c p (d :: s) = .back :=
  bind_back (chr_back s h)

theorem surround_nil {α : Type} {o c : Char} {p : P α} : surround o c p [] = .back := rfl

end Mabo.Parse
