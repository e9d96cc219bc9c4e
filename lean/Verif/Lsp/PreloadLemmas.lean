import Verif.Lsp.Preload
import Verif.Lsp.SyncLemmas
/-! Lemmas on the files that the language server loads when it starts. -/
namespace Mabo.Lsp
open Mabo.Cli (Path Host Disk)
open Mabo.Preload

theorem projectDir_some {e : Option (Path × Bool)} {d : Path} :
    projectDir e = some d ↔ e = some (d ++ ["Mabo.toml".toList], true) := by
  unfold projectDir
  split
  · next p =>
    constructor
    · intro h
      split at h
      · next hl =>
        cases h
        obtain ⟨q, rfl⟩ := List.getLast?_eq_some_iff.1 hl
        simp
      · cases h
    · intro h
      cases h
      simp
  · constructor
    · nofun
    · intro h; cases h
  · constructor <;> nofun

theorem loadProjects_some {h : Host} : ∀ {ds : List Path} {ps : List Project}, loadProjects h ds = some ps →
    ps.map (·.dir) = ds ∧ ∀ p ∈ ps, Cli.load h p.dir = some p.files
  | [], ps, e => by cases e; exact ⟨rfl, nofun⟩
  | d :: ds, ps, e => by
    rw [loadProjects] at e
    cases hl : Cli.load h d with
    | none => rw [hl] at e; cases e
    | some fs =>
      rw [hl] at e
      cases hr : loadProjects h ds with
      | none => simp [hr] at e
      | some rest =>
        simp only [hr, Option.map_some, Option.some.injEq] at e
        subst e
        obtain ⟨h1, h2⟩ := loadProjects_some hr
        refine ⟨by simp [h1], fun p hp => ?_⟩
        rcases List.mem_cons.1 hp with rfl | hp
        · exact hl
        · exact h2 p hp

theorem loadProjects_isSome {h : Host} : ∀ {ds : List Path}, (∀ d ∈ ds, ∃ fs, Cli.load h d = some fs) →
    ∃ ps, loadProjects h ds = some ps
  | [], _ => ⟨[], rfl⟩
  | d :: ds, hd => by
    obtain ⟨fs, hl⟩ := hd d (List.mem_cons_self ..)
    obtain ⟨ps, hp⟩ := loadProjects_isSome fun d' h' => hd d' (List.mem_cons_of_mem _ h')
    exact ⟨⟨d, fs⟩ :: ps, by rw [loadProjects, hl, hp]; rfl⟩

/-- What is in the documents after loading. -/
theorem content_foldl (k : Text) : ∀ (l : List (Text × Text)) (fs : Files Text),
    content (l.foldl (fun fs f => Lsp.insert fs f.1 (createFile f.2)) fs) k =
      match (l.filter fun e => decide (e.1 = k)).getLast? with
      | some e => some e.2
      | none => content fs k
  | [], fs => rfl
  | (a, t) :: l, fs => by
    rw [List.foldl_cons, content_foldl k l, List.filter_cons]
    by_cases ha : a = k
    · subst ha
      simp only [decide_true, if_true]
      cases hl : (l.filter fun e => decide (e.1 = a)).getLast? with
      | none =>
        rw [List.getLast?_eq_none_iff.1 hl]
        simp [content, get_insert_self, createFile]
      | some e =>
        rw [List.getLast?_cons, hl]
        rfl
    · have : decide (a = k) = false := decide_eq_false ha
      simp only [this]
      cases hl : (l.filter fun e => decide (e.1 = k)).getLast? with
      | none => simp only [hl, Bool.false_eq_true, if_false, content, get_insert_ne fs (createFile t) (Ne.symm ha)]
      | some e => simp only [hl, Bool.false_eq_true, if_false]

theorem content_loadFiles {l : List (Text × Text)} (hc : ∀ k a b, (k, a) ∈ l → (k, b) ∈ l → a = b) {k t : Text} :
    content (loadFiles l) k = some t ↔ (k, t) ∈ l := by
  unfold loadFiles
  rw [content_foldl]
  cases hl : (l.filter fun e => decide (e.1 = k)).getLast? with
  | none =>
    have hn := List.getLast?_eq_none_iff.1 hl
    simp only []
    constructor
    · intro h; cases h
    · intro h
      have : (k, t) ∈ l.filter fun e => decide (e.1 = k) := List.mem_filter.2 ⟨h, by simp⟩
      rw [hn] at this
      exact nomatch this
  | some e =>
    have hm := List.mem_of_getLast? hl
    obtain ⟨h1, h2⟩ := List.mem_filter.1 hm
    simp only [decide_eq_true_eq] at h2
    obtain ⟨a, b⟩ := e
    simp only at h2
    subst h2
    simp only [Option.some.injEq]
    exact ⟨fun h => h ▸ h1, fun h => hc _ _ _ h1 h⟩

theorem get_none_of {fs : Files Text} {k : Text} (h : ∀ e ∈ fs, e.1 ≠ k) : get fs k = none := by
  unfold get
  rw [List.find?_eq_none.2 fun e he => by simpa using h e he]
  rfl

theorem foldl_keys (P : Text → Prop) : ∀ (l : List (Text × Text)) (fs : Files Text), (∀ e ∈ l, P e.1) → (∀ e ∈ fs, P e.1) →
    ∀ e ∈ l.foldl (fun fs f => Lsp.insert fs f.1 (createFile f.2)) fs, P e.1
  | [], _, _, h => h
  | x :: l, fs, hl, h => by
    refine foldl_keys P l _ (fun e he => hl e (List.mem_cons_of_mem _ he)) fun e he => ?_
    rcases List.mem_cons.1 he with rfl | he
    · exact hl x (List.mem_cons_self ..)
    · exact h e (List.mem_filter.1 he).1

/-- The same documents for all URIs with a scheme, and others as they are. -/
structure Beside (fs0 fs fs' : Files Text) : Prop where
  same : ∀ k, HasScheme k → get fs' k = get fs k
  rest : ∀ k, ¬ HasScheme k → get fs' k = get fs0 k

theorem beside_insert {fs0 fs fs' : Files Text} (h : Beside fs0 fs fs') {u : Text} (hu : HasScheme u) (f : File) :
    Beside fs0 (insert fs u f) (insert fs' u f) where
  same k hk := by
    by_cases e : k = u
    · subst e; rw [get_insert_self, get_insert_self]
    · rw [get_insert_ne _ _ e, get_insert_ne _ _ e, h.same k hk]
  rest k hk := by
    have e : k ≠ u := fun e => hk (e ▸ hu)
    rw [get_insert_ne _ _ e, h.rest k hk]

theorem get_filter_keys {fs : Files Text} {p : Text → Bool} {k : Text} :
    get (fs.filter fun e => p e.1) k = if p k = true then get fs k else none := by
  split
  · next h => exact get_filter h
  · next h =>
    refine get_none_of fun e he hk => h ?_
    subst hk
    exact (List.mem_filter.1 he).2

/-- The documents that a notification is about. -/
def mentions : Notification Text → List Text
  | .didOpen u _ => [u]
  | .didChange u _ => [u]
  | .didClose u => [u]
  | .didDelete us => us

theorem step_beside {offset : Text → Position → Option Nat} {fs0 fs fs' : Files Text} (h : Beside fs0 fs fs')
    {n : Notification Text} (hn : ∀ u ∈ mentions n, HasScheme u) :
    (∃ a b, step offset fs n = .ok a ∧ step offset fs' n = .ok b ∧ Beside fs0 a b) ∨
    (step offset fs n = .panic ∧ step offset fs' n = .panic) := by
  cases n with
  | didOpen u text =>
    have hu : HasScheme u := hn u (by simp [mentions])
    refine .inl ⟨_, _, rfl, rfl, ?_⟩
    unfold didOpen
    rw [h.same u hu]
    cases get fs u with
    | none => exact beside_insert h hu _
    | some f =>
      simp only []
      split
      · exact h
      · exact beside_insert h hu _
  | didChange u chs =>
    have hu : HasScheme u := hn u (by simp [mentions])
    simp only [step]
    unfold didChange
    split
    · exact .inl ⟨_, _, rfl, rfl, beside_insert h hu _⟩
    · rw [h.same u hu]
      cases get fs u with
      | none => exact .inl ⟨_, _, rfl, rfl, h⟩
      | some f =>
        simp only []
        generalize updateFile _ f = r
        cases r with
        | panic => exact .inr ⟨rfl, rfl⟩
        | ok f' =>
          simp only [Outcome.bind, insert_remove]
          exact .inl ⟨_, _, rfl, rfl, beside_insert h hu _⟩
  | didClose u => exact .inl ⟨_, _, rfl, rfl, h⟩
  | didDelete us =>
    refine .inl ⟨_, _, rfl, rfl, ?_, fun k hk => ?_⟩
    · intro k hk
      unfold didDelete
      rw [get_filter_keys (p := fun k => !us.any (· = k)), get_filter_keys (p := fun k => !us.any (· = k)), h.same k hk]
    · unfold didDelete
      rw [get_filter_keys (p := fun k => !us.any (· = k)), if_pos, h.rest k hk]
      have : ¬ us.any (· = k) = true := fun hc => by
        obtain ⟨u, hu, e⟩ := List.any_eq_true.1 hc
        exact hk (of_decide_eq_true e ▸ hn u hu)
      rw [Bool.not_eq_true', Bool.eq_false_iff]
      exact this

theorem run_beside {offset : Text → Position → Option Nat} {fs0 : Files Text} : ∀ {ns : List (Notification Text)}
    {fs fs' : Files Text}, Beside fs0 fs fs' → (∀ n ∈ ns, ∀ u ∈ mentions n, HasScheme u) →
    (∃ a b, run offset fs ns = .ok a ∧ run offset fs' ns = .ok b ∧ Beside fs0 a b) ∨
    (run offset fs ns = .panic ∧ run offset fs' ns = .panic)
  | [], fs, fs', h, _ => .inl ⟨_, _, rfl, rfl, h⟩
  | n :: ns, fs, fs', h, hn => by
    rcases step_beside (offset := offset) h (hn n (List.mem_cons_self ..)) with ⟨a, b, ha, hb, hab⟩ | ⟨ha, hb⟩
    · simp only [run, ha, hb, Outcome.bind]
      exact run_beside hab fun n' h' => hn n' (List.mem_cons_of_mem _ h')
    · exact .inr ⟨by simp only [run, ha, Outcome.bind], by simp only [run, hb, Outcome.bind]⟩

/-! ### Paths as texts -/

theorem pathText_cons_inj {a b : Text} {p q : Path} (ha : '/' ∉ a) (hb : '/' ∉ b)
    (h : a ++ pathText p = b ++ pathText q) : a = b ∧ pathText p = pathText q := by
  induction a generalizing b with
  | nil =>
    cases b with
    | nil => exact ⟨rfl, h⟩
    | cons c cs =>
      cases p with
      | nil => simp [pathText] at h
      | cons x xs =>
        simp only [pathText, List.flatMap_cons, List.nil_append, List.cons_append, List.cons.injEq] at h
        exact absurd (h.1 ▸ List.mem_cons_self) hb
  | cons d ds ih =>
    cases b with
    | nil =>
      cases q with
      | nil => simp [pathText] at h
      | cons x xs =>
        simp only [pathText, List.flatMap_cons, List.nil_append, List.cons_append, List.cons.injEq] at h
        exact absurd (h.1 ▸ List.mem_cons_self) ha
    | cons c cs =>
      simp only [List.cons_append, List.cons.injEq] at h
      obtain ⟨h1, h2⟩ := ih (fun hm => ha (List.mem_cons_of_mem _ hm)) (fun hm => hb (List.mem_cons_of_mem _ hm)) h.2
      exact ⟨by rw [h.1, h1], h2⟩

theorem pathText_inj : ∀ {p q : Path}, (∀ n ∈ p, '/' ∉ n) → (∀ n ∈ q, '/' ∉ n) → pathText p = pathText q → p = q
  | [], [], _, _, _ => rfl
  | [], _ :: _, _, _, h => by simp [pathText] at h
  | _ :: _, [], _, _, h => by simp [pathText] at h
  | a :: p, b :: q, hp, hq, h => by
    have h' : a ++ pathText p = b ++ pathText q := by
      simp only [pathText, List.flatMap_cons, List.cons_append, List.cons.injEq, true_and] at h
      exact h
    obtain ⟨h1, h2⟩ := pathText_cons_inj (hp a (List.mem_cons_self ..)) (hq b (List.mem_cons_self ..)) h'
    rw [h1, pathText_inj (fun n hn => hp n (List.mem_cons_of_mem _ hn)) (fun n hn => hq n (List.mem_cons_of_mem _ hn)) h2]

theorem pathText_noScheme (p : Path) : ¬ HasScheme (pathText p) := by
  rintro ⟨c, rest, h, hc⟩
  cases p with
  | nil => simp [pathText] at h
  | cons n ns =>
    simp only [pathText, List.flatMap_cons, List.cons_append, List.cons.injEq] at h
    rw [← h.1] at hc
    exact absurd hc (by decide)

/-! ### URIs of folders -/

theorem splitSlash_pathText : ∀ {p : Path}, (∀ n ∈ p, '/' ∉ n) → ∀ {a : Text}, '/' ∉ a → splitSlash (a ++ pathText p) = a :: p
  | [], _, [], _ => rfl
  | n :: p, hp, [], _ => by
    have := splitSlash_pathText (fun m hm => hp m (List.mem_cons_of_mem _ hm)) (hp n (List.mem_cons_self ..))
    rw [show ([] : Text) ++ pathText (n :: p) = '/' :: (n ++ pathText p) from rfl, splitSlash, if_pos rfl, this]
  | p, hp, c :: cs, ha => by
    have hc : c ≠ '/' := fun e => ha (e ▸ List.mem_cons_self)
    have := splitSlash_pathText hp (a := cs) fun hm => ha (List.mem_cons_of_mem _ hm)
    rw [List.cons_append, splitSlash, if_neg hc, this]

theorem components_pathText {p : Path} (hp : ∀ n ∈ p, n ≠ [] ∧ '/' ∉ n) : components (pathText p) = p := by
  have := splitSlash_pathText (fun n hn => (hp n hn).2) (a := []) (by nofun)
  rw [List.nil_append] at this
  rw [components, this, List.filter_cons]
  simp only [List.isEmpty_nil, Bool.not_true, Bool.false_eq_true, if_false]
  refine List.filter_eq_self.2 fun n hn => ?_
  have := (hp n hn).1
  cases n with
  | nil => exact absurd rfl this
  | cons _ _ => rfl

theorem dropWhile_pass {f : Char → Bool} : ∀ {a b : Text}, (∀ c ∈ a, f c = true) → (a ++ b).dropWhile f = b.dropWhile f
  | [], _, _ => rfl
  | c :: cs, b, h => by
    rw [List.cons_append, List.dropWhile_cons, if_pos (h c (List.mem_cons_self ..))]
    exact dropWhile_pass fun d hd => h d (List.mem_cons_of_mem _ hd)

theorem takeWhile_pass {f : Char → Bool} : ∀ {a b : Text}, (∀ c ∈ a, f c = true) → (a ++ b).takeWhile f = a ++ b.takeWhile f
  | [], _, _ => rfl
  | c :: cs, b, h => by
    rw [List.cons_append, List.takeWhile_cons, if_pos (h c (List.mem_cons_self ..)), takeWhile_pass fun d hd =>
      h d (List.mem_cons_of_mem _ hd), List.cons_append]

end Mabo.Lsp
