import Verif.Spec.DocRun
import Verif.Cli.Lemmas
/-!
The run of `mabo doc` as a list of single operations, and what such a list does.
-/
namespace Mabo.DocRun
open Mabo.Parse (Text Std)
open Mabo.Doc (Markdown)
open Mabo.Cli (Path Fault isMabo)

/-- An operation. -/
inductive Act where
  | mk (p : Path)
  | wr (p : Path) (b : ByteArray)

/-- One operation after the other until one fails. -/
def exec (m : Machine) : List Act → Bool × Machine
  | [] => (true, m)
  | .mk p :: as =>
    match m.tree p with
    | some .dir => exec m as
    | some (.file _) => (false, m)
    | none =>
      match m.fault with
      | .done => exec (m.set p .dir) as
      | _ => (false, m)
  | .wr p b :: as =>
    match writeFile m p b with
    | (false, m) => (false, m)
    | (true, m) => exec m as

theorem exec_append (as bs : List Act) : ∀ m, exec m (as ++ bs) =
    match exec m as with
    | (false, m) => (false, m)
    | (true, m) => exec m bs := by
  induction as with
  | nil => intro m; rfl
  | cons a as ih =>
    intro m
    cases a with
    | mk p =>
      simp only [List.cons_append, exec]
      cases m.tree p with
      | none => cases m.fault <;> simp only [ih]
      | some e => cases e <;> simp only [ih]
    | wr p b =>
      simp only [List.cons_append, exec]
      cases writeFile m p b with
      | mk r m' => cases r <;> simp only [ih]

/-- The directories on the way. -/
def dirActs (done : Path) : List Text → List Act
  | [] => []
  | c :: cs => .mk (done ++ [c]) :: dirActs (done ++ [c]) cs

theorem makeDirs_exec (cs : List Text) : ∀ m done, makeDirs m done cs = exec m (dirActs done cs) := by
  induction cs with
  | nil => intro m done; rfl
  | cons c cs ih =>
    intro m done
    simp only [makeDirs, dirActs, exec]
    cases m.tree (done ++ [c]) with
    | none => cases m.fault <;> simp only [ih]
    | some e => cases e <;> simp only [ih]

theorem mem_dirActs {a : Act} : ∀ {cs : List Text} {done : Path}, a ∈ dirActs done cs ↔
    ∃ x y, x ≠ [] ∧ cs = x ++ y ∧ a = .mk (done ++ x)
  | [], done => by
    simp only [dirActs, List.not_mem_nil, false_iff]
    rintro ⟨x, y, hx, he, _⟩
    cases x with
    | nil => exact hx rfl
    | cons _ _ => cases he
  | c :: cs, done => by
    simp only [dirActs, List.mem_cons, mem_dirActs (cs := cs)]
    constructor
    · rintro (rfl | ⟨x, y, _, rfl, rfl⟩)
      · exact ⟨[c], cs, List.cons_ne_nil _ _, rfl, rfl⟩
      · exact ⟨c :: x, y, List.cons_ne_nil _ _, rfl, by rw [List.append_assoc]; rfl⟩
    · rintro ⟨x, y, hx, he, rfl⟩
      cases x with
      | nil => exact absurd rfl hx
      | cons d x =>
        injection he with h1 h2
        subst h1 h2
        cases x with
        | nil => exact .inl rfl
        | cons e x => exact .inr ⟨e :: x, y, List.cons_ne_nil _ _, rfl, by rw [List.append_assoc]; rfl⟩

/-- The operations for a page. -/
noncomputable def pageActs (x : Path × Text) : List Act := dirActs [] x.1.dropLast ++ [.wr x.1 x.2.utf8Encode]

theorem writePages_exec (pages : List (Path × Text)) : ∀ m, writePages m pages = exec m (pages.flatMap pageActs) := by
  induction pages with
  | nil => intro m; rfl
  | cons x pages ih =>
    intro m
    obtain ⟨p, t⟩ := x
    rw [List.flatMap_cons, exec_append, pageActs, exec_append, writePages, makeDirs_exec]
    cases exec m (dirActs [] p.dropLast) with
    | mk r m' =>
      cases r with
      | false => rfl
      | true =>
        simp only [exec]
        cases writeFile m' p t.utf8Encode with
        | mk r m' => cases r <;> simp only [ih]

/-! ### What changes -/

/-- A path after some operations. -/
theorem exec_frame {r : Bool} : ∀ {as : List Act} {m m' : Machine}, exec m as = (r, m') → ∀ p,
    m'.tree p = m.tree p ∨ (m.tree p = none ∧ m'.tree p = some .dir ∧ .mk p ∈ as) ∨
    (∃ b n, .wr p b ∈ as ∧ m'.tree p = some (.file (b.extract 0 n)) ∧ m.tree p ≠ some .dir)
  | [], m, m', h, p => by
    injection h with _ h
    exact .inl (by rw [h])
  | .mk q :: as, m, m', h, p => by
    have more {m₀ : Machine} (h : exec m₀ as = (r, m')) (hk : m₀.tree p = m.tree p) :
        m'.tree p = m.tree p ∨ (m.tree p = none ∧ m'.tree p = some .dir ∧ .mk p ∈ Act.mk q :: as) ∨
        (∃ b n, .wr p b ∈ Act.mk q :: as ∧ m'.tree p = some (.file (b.extract 0 n)) ∧ m.tree p ≠ some .dir) := by
      rw [← hk]
      rcases exec_frame h p with h | ⟨h1, h2, h3⟩ | ⟨b, n, h1, h2⟩
      · exact .inl h
      · exact .inr (.inl ⟨h1, h2, List.mem_cons_of_mem _ h3⟩)
      · exact .inr (.inr ⟨b, n, List.mem_cons_of_mem _ h1, h2⟩)
    simp only [exec] at h
    cases ht : m.tree q with
    | some e =>
      cases e with
      | dir => rw [ht] at h; exact more h rfl
      | file b =>
        rw [ht] at h
        injection h with _ h
        exact .inl (by rw [h])
    | none =>
      rw [ht] at h
      cases hf : m.fault with
      | refused => rw [hf] at h; injection h with _ h; exact .inl (by rw [h])
      | cut n => rw [hf] at h; injection h with _ h; exact .inl (by rw [h])
      | done =>
        rw [hf] at h
        by_cases hpq : p = q
        · subst hpq
          have hs : (m.set p .dir).tree p = some .dir := if_pos rfl
          rcases exec_frame h p with h | ⟨h1, _⟩ | ⟨b, n, _, _, h3⟩
          · exact .inr (.inl ⟨ht, h.trans hs, List.mem_cons_self ..⟩)
          · rw [hs] at h1; cases h1
          · exact absurd hs h3
        · exact more h (if_neg hpq)
  | .wr q b :: as, m, m', h, p => by
    have more {m₀ : Machine} (h : exec m₀ as = (r, m')) (hk : m₀.tree p = m.tree p) :
        m'.tree p = m.tree p ∨ (m.tree p = none ∧ m'.tree p = some .dir ∧ .mk p ∈ Act.wr q b :: as) ∨
        (∃ c n, .wr p c ∈ Act.wr q b :: as ∧ m'.tree p = some (.file (c.extract 0 n)) ∧ m.tree p ≠ some .dir) := by
      rw [← hk]
      rcases exec_frame h p with h | ⟨h1, h2, h3⟩ | ⟨b, n, h1, h2⟩
      · exact .inl h
      · exact .inr (.inl ⟨h1, h2, List.mem_cons_of_mem _ h3⟩)
      · exact .inr (.inr ⟨b, n, List.mem_cons_of_mem _ h1, h2⟩)
    simp only [exec] at h
    by_cases hd : m.tree q = some .dir
    · rw [show writeFile m q b = (false, m) by simp only [writeFile, hd]] at h
      injection h with _ h
      exact .inl (by rw [h])
    · have hw : writeFile m q b = match m.fault with
          | .done => (true, m.set q (.file b))
          | .refused => (false, m)
          | .cut n => (false, m.set q (.file (b.extract 0 n))) := by
        unfold writeFile
        cases ht : m.tree q with
        | none => rfl
        | some e =>
          cases e with
          | dir => exact absurd ht hd
          | file _ => rfl
      rw [hw] at h
      cases hf : m.fault with
      | refused => rw [hf] at h; injection h with _ h; exact .inl (by rw [h])
      | cut n =>
        rw [hf] at h
        injection h with _ h
        subst h
        by_cases hpq : p = q
        · subst hpq
          exact .inr (.inr ⟨b, n, List.mem_cons_self .., if_pos rfl, hd⟩)
        · exact .inl (if_neg hpq)
      | done =>
        rw [hf] at h
        by_cases hpq : p = q
        · subst hpq
          have hs : (m.set p (.file b)).tree p = some (.file b) := if_pos rfl
          rcases exec_frame h p with h | ⟨h1, _⟩ | ⟨c, n, h1, h2, _⟩
          · exact .inr (.inr ⟨b, b.size, List.mem_cons_self .., by rw [h, hs, ByteArray.extract_zero_size], hd⟩)
          · rw [hs] at h1; cases h1
          · exact .inr (.inr ⟨c, n, List.mem_cons_of_mem _ h1, h2, hd⟩)
        · exact more h (if_neg hpq)

/-! ### Runs that succeed -/

/-- The tree after an operation. -/
def Act.apply (t : Tree) : Act → Tree
  | .mk p => fun q => if q = p then some .dir else t q
  | .wr p b => fun q => if q = p then some (.file b) else t q

/-- The tree after all operations. -/
def applyAll (t : Tree) : List Act → Tree
  | [] => t
  | a :: as => applyAll (a.apply t) as

/-- Nothing is in the way. -/
structure Free (t : Tree) (as : List Act) : Prop where
  dirs : ∀ p b, .mk p ∈ as → t p ≠ some (.file b)
  files : ∀ p b, .wr p b ∈ as → t p ≠ some .dir
  apart : ∀ p b, .mk p ∈ as → .wr p b ∉ as

theorem set_dir (m : Machine) {p : Path} (h : m.tree p = some .dir) : (Act.mk p).apply m.tree = m.tree := by
  funext q
  simp only [Act.apply]
  split
  · next e => rw [e, h]
  · rfl

/-- Without faults, success is freedom. -/
theorem exec_done : ∀ (as : List Act) (t : Tree), Free t as → exec ⟨t, []⟩ as = (true, ⟨applyAll t as, []⟩)
  | [], t, _ => rfl
  | .mk p :: as, t, h => by
    have hn : Free ((Act.mk p).apply t) as := by
      refine ⟨fun q b hq => ?_, fun q b hq => ?_, fun q b hq hb => h.apart q b (List.mem_cons_of_mem _ hq) (List.mem_cons_of_mem _ hb)⟩
      · simp only [Act.apply]
        split
        · exact fun h => nomatch h
        · exact h.dirs q b (List.mem_cons_of_mem _ hq)
      · simp only [Act.apply]
        split
        · next e => subst e; exact absurd (List.mem_cons_of_mem _ hq) (h.apart q b (List.mem_cons_self ..))
        · exact h.files q b (List.mem_cons_of_mem _ hq)
    simp only [exec, applyAll]
    cases ht : t p with
    | none => exact exec_done as _ hn
    | some e =>
      cases e with
      | dir =>
        have := exec_done as _ hn
        rw [set_dir ⟨t, []⟩ ht] at this ⊢
        exact this
      | file b => exact absurd ht (h.dirs p b (List.mem_cons_self ..))
  | .wr p b :: as, t, h => by
    have hn : Free ((Act.wr p b).apply t) as := by
      refine ⟨fun q c hq => ?_, fun q c hq => ?_, fun q c hq hb => h.apart q c (List.mem_cons_of_mem _ hq) (List.mem_cons_of_mem _ hb)⟩
      · simp only [Act.apply]
        split
        · next e => subst e; exact absurd (List.mem_cons_self ..) (h.apart q b (List.mem_cons_of_mem _ hq))
        · exact h.dirs q c (List.mem_cons_of_mem _ hq)
      · simp only [Act.apply]
        split
        · exact fun h => nomatch h
        · exact h.files q c (List.mem_cons_of_mem _ hq)
    have hw : writeFile ⟨t, []⟩ p b = (true, ⟨(Act.wr p b).apply t, []⟩) := by
      unfold writeFile
      dsimp only
      cases ht : t p with
      | none => rfl
      | some e =>
        cases e with
        | dir => exact absurd ht (h.files p b (List.mem_cons_self ..))
        | file _ => rfl
    simp only [exec, hw, applyAll]
    exact exec_done as _ hn

/-- Whatever the faults are, a run that succeeds was free and has done everything. -/
theorem exec_success : ∀ {as : List Act} {m m' : Machine}, exec m as = (true, m') → Free m.tree as ∧ m'.tree = applyAll m.tree as
  | [], m, m', h => by
    injection h with _ h
    exact ⟨⟨nofun, nofun, nofun⟩, by rw [← h]; rfl⟩
  | .mk p :: as, m, m', h => by
    have step {m₀ : Machine} (hm : m₀.tree = (Act.mk p).apply m.tree) (hp : ∀ b, m.tree p ≠ some (.file b))
        (h : exec m₀ as = (true, m')) : Free m.tree (.mk p :: as) ∧ m'.tree = applyAll m.tree (.mk p :: as) := by
      obtain ⟨h1, h2⟩ := exec_success h
      rw [hm] at h1 h2
      refine ⟨⟨fun q b hq => ?_, fun q b hq => ?_, fun q b hq hb => ?_⟩, h2⟩
      · rcases List.mem_cons.1 hq with e | hq
        · injection e with e; subst e; exact hp b
        · by_cases hqp : q = p
          · subst hqp; exact hp b
          · have := h1.dirs q b hq
            rwa [show (Act.mk p).apply m.tree q = m.tree q from if_neg hqp] at this
      · rcases List.mem_cons.1 hq with e | hq
        · cases e
        · have := h1.files q b hq
          by_cases hqp : q = p
          · subst hqp; exact absurd (if_pos rfl) this
          · rwa [show (Act.mk p).apply m.tree q = m.tree q from if_neg hqp] at this
      · rcases List.mem_cons.1 hb with e | hb'
        · cases e
        · rcases List.mem_cons.1 hq with e | hq'
          · injection e with e; subst e; exact h1.files q b hb' (if_pos rfl)
          · exact h1.apart q b hq' hb'
    simp only [exec] at h
    cases ht : m.tree p with
    | none =>
      rw [ht] at h
      cases hf : m.fault with
      | refused => rw [hf] at h; injection h with h; cases h
      | cut n => rw [hf] at h; injection h with h; cases h
      | done => rw [hf] at h; exact step rfl (fun b hb => nomatch ht.symm.trans hb) h
    | some e =>
      cases e with
      | dir => rw [ht] at h; exact step (set_dir m ht).symm (fun b hb => by rw [ht] at hb; cases hb) h
      | file b => rw [ht] at h; injection h with h; cases h
  | .wr p b :: as, m, m', h => by
    simp only [exec] at h
    have hw : m.tree p ≠ some .dir ∧ writeFile m p b = (true, m.set p (.file b)) := by
      unfold writeFile at h ⊢
      cases ht : m.tree p with
      | none =>
        rw [ht] at h
        cases hf : m.fault with
        | refused => rw [hf] at h; injection h with h; cases h
        | cut n => rw [hf] at h; injection h with h; cases h
        | done => exact ⟨nofun, rfl⟩
      | some e =>
        rw [ht] at h
        cases e with
        | dir => injection h with h; cases h
        | file c =>
          cases hf : m.fault with
          | refused => rw [hf] at h; injection h with h; cases h
          | cut n => rw [hf] at h; injection h with h; cases h
          | done => exact ⟨nofun, rfl⟩
    rw [hw.2] at h
    obtain ⟨h1, h2⟩ := exec_success h
    have hm : (m.set p (.file b)).tree = (Act.wr p b).apply m.tree := rfl
    rw [hm] at h1 h2
    refine ⟨⟨fun q c hq => ?_, fun q c hq => ?_, fun q c hq hb => ?_⟩, h2⟩
    · rcases List.mem_cons.1 hq with e | hq
      · cases e
      · have := h1.dirs q b hq
        by_cases hqp : q = p
        · subst hqp; exact absurd (if_pos rfl) this
        · have := h1.dirs q c hq
          rwa [show (Act.wr p b).apply m.tree q = m.tree q from if_neg hqp] at this
    · rcases List.mem_cons.1 hq with e | hq
      · injection e with e; subst e; exact hw.1
      · by_cases hqp : q = p
        · subst hqp; exact hw.1
        · have := h1.files q c hq
          rwa [show (Act.wr p b).apply m.tree q = m.tree q from if_neg hqp] at this
    · rcases List.mem_cons.1 hq with e | hq'
      · cases e
      · rcases List.mem_cons.1 hb with e | hb'
        · injection e with e e'; subst e; exact h1.dirs q b hq' (if_pos rfl)
        · exact h1.apart q c hq' hb'

/-- The tree afterwards depends on the one before only at the paths of no operation. -/
theorem applyAll_congr : ∀ (as : List Act) {t t' : Tree} {p : Path}, (t p = t' p ∨ .mk p ∈ as ∨ ∃ b, .wr p b ∈ as) →
    applyAll t as p = applyAll t' as p
  | [], t, t', p, h => by
    rcases h with h | h | ⟨_, h⟩
    · exact h
    · cases h
    · cases h
  | a :: as, t, t', p, h => by
    simp only [applyAll]
    apply applyAll_congr as
    rcases h with h | h | ⟨b, h⟩
    · left
      cases a <;> simp only [Act.apply, h]
    · rcases List.mem_cons.1 h with rfl | h
      · left; simp only [Act.apply, if_pos]
      · exact .inr (.inl h)
    · rcases List.mem_cons.1 h with rfl | h
      · left; simp only [Act.apply, if_pos]
      · exact .inr (.inr ⟨b, h⟩)

/-- Afterwards there is what the last operation on the path has made. -/
theorem applyAll_wr : ∀ (as : List Act) {t : Tree} {p : Path} {b : ByteArray}, .wr p b ∈ as → .mk p ∉ as →
    ∃ c, .wr p c ∈ as ∧ applyAll t as p = some (.file c)
  | [], t, p, b, h, _ => nomatch h
  | a :: as, t, p, b, h, hm => by
    simp only [applyAll]
    by_cases hl : ∃ c, .wr p c ∈ as
    · obtain ⟨c, hc⟩ := hl
      obtain ⟨d, h1, h2⟩ := applyAll_wr as (t := a.apply t) hc fun h => hm (List.mem_cons_of_mem _ h)
      exact ⟨d, List.mem_cons_of_mem _ h1, h2⟩
    · rcases List.mem_cons.1 h with rfl | h
      · refine ⟨b, List.mem_cons_self .., ?_⟩
        have keep : ∀ (as : List Act) (t : Tree), (¬ ∃ c, .wr p c ∈ as) → .mk p ∉ as → applyAll t as p = t p := by
          intro as
          induction as with
          | nil => intro t _ _; rfl
          | cons a as ih =>
            intro t h1 h2
            simp only [applyAll]
            rw [ih _ (fun ⟨c, hc⟩ => h1 ⟨c, List.mem_cons_of_mem _ hc⟩) fun h => h2 (List.mem_cons_of_mem _ h)]
            cases a with
            | mk q => exact if_neg fun e => h2 (by rw [e]; exact List.mem_cons_self ..)
            | wr q c => exact if_neg fun e => h1 ⟨c, by rw [e]; exact List.mem_cons_self ..⟩
        rw [keep as _ hl fun h => hm (List.mem_cons_of_mem _ h)]
        exact if_pos rfl
      · exact absurd ⟨b, h⟩ hl

theorem applyAll_mk : ∀ (as : List Act) {t : Tree} {p : Path}, (.mk p ∈ as ∨ t p = some .dir) → (∀ b, .wr p b ∉ as) →
    applyAll t as p = some .dir
  | [], t, p, h, _ => by
    rcases h with h | h
    · cases h
    · exact h
  | a :: as, t, p, h, hw => by
    simp only [applyAll]
    refine applyAll_mk as ?_ fun b hb => hw b (List.mem_cons_of_mem _ hb)
    rcases h with h | h
    · rcases List.mem_cons.1 h with rfl | h
      · exact .inr (if_pos rfl)
      · exact .inl h
    · refine .inr ?_
      cases a with
      | mk q => simp only [Act.apply, h, ite_self]
      | wr q b =>
        have : p ≠ q := fun e => hw b (by rw [e]; exact List.mem_cons_self ..)
        simp only [Act.apply, if_neg this, h]

/-- A run after another one that was interrupted anywhere does what it had done without the other one. -/
theorem exec_again {as : List Act} {t : Tree} {m : Machine} {fs : List Fault} {r : Bool}
    (h : exec ⟨t, fs⟩ as = (r, m)) (hf : Free t as) : exec ⟨m.tree, []⟩ as = (true, ⟨applyAll t as, []⟩) := by
  have hfree : Free m.tree as := by
    refine ⟨fun p b hp => ?_, fun p b hp => ?_, hf.apart⟩
    · rcases exec_frame h p with e | ⟨_, e, _⟩ | ⟨c, n, hc, _⟩
      · rw [e]; exact hf.dirs p b hp
      · rw [e]; exact nofun
      · exact absurd hc (hf.apart p c hp)
    · rcases exec_frame h p with e | ⟨_, _, hm⟩ | ⟨c, n, _, e, _⟩
      · rw [e]; exact hf.files p b hp
      · exact absurd hp (hf.apart p b hm)
      · rw [e]; exact nofun
  rw [exec_done as _ hfree]
  congr 2
  funext p
  apply applyAll_congr
  rcases exec_frame h p with e | ⟨_, _, hm⟩ | ⟨c, n, hc, _⟩
  · exact .inl e
  · exact .inr (.inl hm)
  · exact .inr (.inr ⟨c, hc⟩)

end Mabo.DocRun
