import Verif.Spec.Cli
import Verif.Props.Schema
/-! Lemmas about `format`, `check` and the selection of files. -/
namespace Mabo.Cli
open Mabo.Spec
open Mabo.Parse (Text Std fmtFile parseSchema printSchema)

theorem decode_some {b : ByteArray} {a : Array Char} (h : b.utf8Decode? = some a) : b = a.toList.utf8Encode := by
  have hs : b.utf8Decode?.isSome = true := by rw [h]; rfl
  have := ByteArray.utf8Encode_get_utf8Decode? (b := b) (h := hs)
  rw [← this]
  congr 2
  simp [h]

theorem encode_inj {t u : Text} (h : t.utf8Encode = u.utf8Encode) : t = u := by
  have e := congrArg ByteArray.utf8Decode? h
  rw [List.utf8Decode?_utf8Encode, List.utf8Decode?_utf8Encode, Option.some.injEq] at e
  simpa using e

theorem holds_inj {d : Disk} {i : Nat} {t u : Text} (h : Holds d i t) (h' : Holds d i u) : t = u := by
  unfold Holds at h h'
  rw [h, Option.some.injEq] at h'
  exact encode_inj h'

/-- Reading gives the text of the file. -/
theorem read_iff {d : Disk} {p : Path} {t : Text} : d.read p = some t ↔ ∃ i, d.inode p = some i ∧ Holds d i t := by
  unfold Disk.read Holds
  cases hi : d.inode p with
  | none => simp
  | some i =>
    cases hd : d.data i with
    | none => simp [hd]
    | some b =>
      show (match d.data i with
        | none => none
        | some b => b.utf8Decode?.map Array.toList) = _ ↔ _
      rw [hd]
      simp only [Option.map_eq_some_iff, Option.some.injEq]
      constructor
      · rintro ⟨a, ha, rfl⟩
        exact ⟨i, rfl, by rw [hd, ← decode_some ha]⟩
      · rintro ⟨j, rfl, hj⟩
        rw [hd, Option.some.injEq] at hj
        exact ⟨t.toArray, by rw [hj, List.utf8Decode?_utf8Encode], rfl⟩

theorem Disk.ext' {d e : Disk} (h : d.inode = e.inode) (h' : ∀ i, d.data i = e.data i) : d = e := by
  cases d; cases e; cases h; congr; exact funext h'

theorem set_same {d : Disk} {i : Nat} {b : ByteArray} (h : d.data i = some b) : d.set i b = d := by
  refine Disk.ext' rfl fun j => ?_
  show (if j = i then some b else d.data j) = _
  by_cases hj : j = i
  · subst hj; rw [if_pos rfl, h]
  · rw [if_neg hj]

theorem set_data {d : Disk} {i j : Nat} {b : ByteArray} : (d.set i b).data j = if j = i then some b else d.data j := rfl

theorem set_holds {d : Disk} {i : Nat} {t : Text} : Holds (d.set i t.utf8Encode) i t := by
  unfold Holds; rw [set_data, if_pos rfl]

theorem set_holds_ne {d : Disk} {i j : Nat} {t : Text} {b : ByteArray} (h : j ≠ i) : Holds (d.set i b) j t ↔ Holds d j t := by
  unfold Holds; rw [set_data, if_neg h]

theorem set_inode {d : Disk} {i : Nat} {b : ByteArray} : (d.set i b).inode = d.inode := rfl

theorem fmtFile_rejected {std : Std} {t : Text} (h : parseSchema std t = none) : fmtFile std t = t := by
  unfold fmtFile; rw [h]

/-- One file, if the run goes on to the next: what the rest of the run starts with. -/
theorem format_cons {std : Std} {o : Path → Fault} {d : Disk} {p : Path} {rest : List Path} {i : Nat} {t : Text}
    (hi : d.inode p = some i) (ht : Holds d i t) (ho : fmtFile std t ≠ t → o p = .done) :
    (format std o d (p :: rest)).disk = (format std o (d.set i (fmtFile std t).utf8Encode) rest).disk ∧
    (format std o d (p :: rest)).exit = (format std o (d.set i (fmtFile std t).utf8Encode) rest).exit ∧
    (format std o d (p :: rest)).written = (if fmtFile std t ≠ t then [p] else []) ++
      (format std o (d.set i (fmtFile std t).utf8Encode) rest).written ∧
    (format std o d (p :: rest)).reported = (if parseSchema std t = none then [p] else []) ++
      (format std o (d.set i (fmtFile std t).utf8Encode) rest).reported := by
  have hr : d.read p = some t := read_iff.2 ⟨i, hi, ht⟩
  rw [format, hr]
  simp only []
  cases hs : parseSchema std t with
  | none => rw [fmtFile_rejected hs, set_same ht]; simp
  | some s =>
    have he := Props.fmtFile_accepted std hs
    rw [he] at ho ⊢
    by_cases hp : t = printSchema std s
    · simp only [ne_eq, ← hp, not_true_eq_false, if_false, set_same ht]; simp
    · simp only [ne_eq, hp, not_false_eq_true, if_true]
      have := ho fun h => hp h.symm
      simp only [Disk.write, hi, this]
      simp [Ne.symm hp]

/-- One file, if the run ends there. -/
theorem format_stop {std : Std} {o : Path → Fault} {d : Disk} {p : Path} {rest : List Path}
    (h : ∀ i t, d.inode p = some i → Holds d i t → fmtFile std t ≠ t ∧ o p ≠ .done) :
    (format std o d (p :: rest)).exit = .failure ∧ (format std o d (p :: rest)).reported = [] ∧
    ((format std o d (p :: rest)).disk = d ∧ (format std o d (p :: rest)).written = [] ∧ (∀ n, o p = .cut n → d.read p = none) ∨
      ∃ i t n, d.inode p = some i ∧ Holds d i t ∧ fmtFile std t ≠ t ∧ o p = .cut n ∧
        (format std o d (p :: rest)).disk = d.set i ((fmtFile std t).utf8Encode.extract 0 n) ∧
        (format std o d (p :: rest)).written = [p]) := by
  rw [format]
  cases hr : d.read p with
  | none => exact ⟨rfl, rfl, .inl ⟨rfl, rfl, fun _ _ => rfl⟩⟩
  | some t =>
    obtain ⟨i, hi, ht⟩ := read_iff.1 hr
    obtain ⟨hc, ho⟩ := h i t hi ht
    simp only []
    cases hs : parseSchema std t with
    | none => exact absurd (fmtFile_rejected hs) hc
    | some s =>
      have he := Props.fmtFile_accepted std hs
      rw [he] at hc
      simp only [ne_eq, Ne.symm hc, not_false_eq_true, if_true, Disk.write, hi]
      cases hp : o p with
      | done => exact absurd hp ho
      | refused => exact ⟨rfl, rfl, .inl ⟨rfl, rfl, fun _ h => nomatch h⟩⟩
      | cut n => exact ⟨rfl, rfl, .inr ⟨i, t, n, rfl, ht, by rw [he]; exact hc, rfl, by rw [he], rfl⟩⟩

/-- A run stops at a file or goes on. -/
theorem go_or_stop (std : Std) (o : Path → Fault) (d : Disk) (p : Path) :
    (∃ i t, d.inode p = some i ∧ Holds d i t ∧ (fmtFile std t ≠ t → o p = .done)) ∨
    (∀ i t, d.inode p = some i → Holds d i t → fmtFile std t ≠ t ∧ o p ≠ .done) := by
  by_cases h : ∃ i t, d.inode p = some i ∧ Holds d i t ∧ (fmtFile std t ≠ t → o p = .done)
  · exact .inl h
  · refine .inr fun i t hi ht => Classical.byContradiction fun hc => h ⟨i, t, hi, ht, fun hf => ?_⟩
    exact Classical.byContradiction fun ho => hc ⟨hf, ho⟩

/-- The text of a file after it has been formatted several times. -/
def times (std : Std) : Nat → Text → Text
  | 0, t => t
  | n + 1, t => times std n (fmtFile std t)

/-- How often the paths lead to an inode. -/
def visits (d : Disk) (files : List Path) (i : Nat) : Nat := files.countP fun p => d.inode p == some i

theorem visits_cons {d : Disk} {p : Path} {files : List Path} {i : Nat} :
    visits d (p :: files) i = visits d files i + if d.inode p = some i then 1 else 0 := by
  unfold visits
  rw [List.countP_cons]
  by_cases h : d.inode p = some i <;> simp [h]

theorem visits_pos {d : Disk} {files : List Path} {i : Nat} : 0 < visits d files i ↔ Selects d files i := by
  unfold visits Selects
  rw [List.countP_pos_iff]
  simp

theorem visits_zero {d : Disk} {files : List Path} {i : Nat} (h : ¬ Selects d files i) : visits d files i = 0 := by
  have := mt visits_pos.1 h
  omega

theorem visits_set {d : Disk} {j : Nat} {b : ByteArray} {files : List Path} {i : Nat} :
    visits (d.set j b) files i = visits d files i := rfl

/-- What a successful run does to every file. -/
theorem format_success {std : Std} {o : Path → Fault} : ∀ {files : List Path} {d : Disk},
    (format std o d files).exit = .success →
    (format std o d files).disk.inode = d.inode ∧
    (∀ p ∈ files, ∃ i t, d.inode p = some i ∧ Holds d i t) ∧
    (∀ i, ¬ Selects d files i → (format std o d files).disk.data i = d.data i) ∧
    ∀ i t, Holds d i t → Holds (format std o d files).disk i (times std (visits d files i) t)
  | [], d, _ => ⟨rfl, fun _ h => (nomatch h), fun _ _ => rfl, fun _ _ h => h⟩
  | p :: rest, d, h => by
    rcases go_or_stop std o d p with ⟨i, t, hi, ht, ho⟩ | hstop
    · obtain ⟨e1, e2, _⟩ := format_cons (rest := rest) hi ht ho
      rw [e2] at h
      obtain ⟨h1, h2, h3, h4⟩ := format_success h
      rw [e1]
      refine ⟨h1, fun q hq => ?_, fun j hj => ?_, fun j u hu => ?_⟩
      · rcases List.mem_cons.1 hq with rfl | hq
        · exact ⟨i, t, hi, ht⟩
        · obtain ⟨j, u, hj, hu⟩ := h2 q hq
          by_cases e : j = i
          · subst e; exact ⟨j, t, hj, ht⟩
          · exact ⟨j, u, hj, (set_holds_ne e).1 hu⟩
      · have hji : j ≠ i := fun e => hj ⟨p, List.mem_cons_self, e ▸ hi⟩
        rw [h3 j fun ⟨q, hq, hqi⟩ => hj ⟨q, List.mem_cons_of_mem _ hq, hqi⟩, set_data, if_neg hji]
      · rw [visits_cons]
        by_cases e : j = i
        · subst e
          rw [if_pos hi]
          obtain rfl := holds_inj hu ht
          exact h4 j _ set_holds
        · rw [if_neg (by rw [hi]; intro h; exact e (Option.some.inj h).symm)]
          exact h4 j u ((set_holds_ne e).2 hu)
    · rw [(format_stop hstop).1] at h; cases h

theorem distinct_visits {d : Disk} : ∀ {files : List Path} {i : Nat}, Distinct d files → visits d files i ≤ 1
  | [], _, _ => Nat.zero_le _
  | p :: rest, i, h => by
    rw [visits_cons]
    by_cases hp : d.inode p = some i
    · have hz : ¬ Selects d rest i := fun ⟨q, hq, hqi⟩ => by
        rcases (List.pairwise_cons.1 h).1 q hq with h | h
        · rw [hp] at h; cases h
        · exact h (hp.trans hqi.symm)
      rw [if_pos hp, visits_zero hz]
      exact Nat.le_refl 1
    · rw [if_neg hp]
      exact distinct_visits (List.pairwise_cons.1 h).2

theorem times_fixed {std : Std} {t : Text} (h : fmtFile std t = t) : ∀ n, times std n t = t
  | 0 => rfl
  | n + 1 => by rw [times, h]; exact times_fixed h n

theorem times_once {std : Std} {t : Text} (h : fmtFile std (fmtFile std t) = fmtFile std t) {n : Nat} (hn : 0 < n) :
    times std n t = fmtFile std t := by
  cases n with
  | zero => cases hn
  | succ n => exact times_fixed h n

/-- `check` changes nothing. -/
theorem check_disk {std : Std} {d : Disk} : ∀ {files : List Path}, (check std d files).disk = d
  | [] => rfl
  | p :: rest => by
    rw [check]
    cases d.read p with
    | none => rfl
    | some t =>
      simp only []
      cases parseSchema std t with
      | none => exact check_disk (files := rest)
      | some _ => exact check_disk (files := rest)

theorem check_cons {std : Std} {d : Disk} {p : Path} {rest : List Path} {t : Text} (h : d.read p = some t) :
    (check std d (p :: rest)).exit = (check std d rest).exit ∧
    (check std d (p :: rest)).reported = (if parseSchema std t = none then [p] else []) ++ (check std d rest).reported ∧
    (check std d (p :: rest)).written = (check std d rest).written := by
  rw [check, h]
  simp only []
  cases hs : parseSchema std t <;> simp

/-! ### Selection -/

theorem rsplitDot_none {t : Text} (h : rsplitDot t = none) : '.' ∉ t := by
  induction t with
  | nil => exact List.not_mem_nil
  | cons c cs ih =>
    rw [rsplitDot] at h
    cases hr : rsplitDot cs with
    | some ba => rw [hr] at h; cases h
    | none =>
      rw [hr] at h
      simp only [] at h
      by_cases hc : c = '.'
      · rw [if_pos hc] at h; cases h
      · intro hm
        rcases List.mem_cons.1 hm with e | hm
        · exact hc e.symm
        · exact ih hr hm

theorem rsplitDot_some {t b a : Text} : rsplitDot t = some (b, a) ↔ t = b ++ '.' :: a ∧ '.' ∉ a := by
  induction t generalizing b with
  | nil =>
    rw [rsplitDot]
    constructor
    · intro h; cases h
    · rintro ⟨h, _⟩; cases b <;> cases h
  | cons c cs ih =>
    rw [rsplitDot]
    cases hr : rsplitDot cs with
    | some ba =>
      obtain ⟨b', a'⟩ := ba
      simp only [Option.some.injEq, Prod.mk.injEq]
      constructor
      · rintro ⟨rfl, rfl⟩
        have ⟨e, hn⟩ := (ih (b := b')).1 ?_
        · exact ⟨by rw [e]; rfl, hn⟩
        · rw [hr]
      · rintro ⟨e, hn⟩
        cases b with
        | nil =>
          injection e with e1 e2
          have hx : '.' ∈ cs := by
            have : rsplitDot cs ≠ none := by rw [hr]; exact fun h => nomatch h
            refine Classical.byContradiction fun hc => this ?_
            clear ih hr e2 this
            induction cs with
            | nil => rfl
            | cons x xs ih =>
              rw [List.mem_cons, not_or] at hc
              rw [rsplitDot, ih hc.2]
              simp only []
              rw [if_neg fun h => hc.1 h.symm]
          rw [e2] at hx
          exact absurd hx hn
        | cons x xs =>
          injection e with e1 e2
          have := (ih (b := xs)).2 ⟨e2, hn⟩
          rw [hr, Option.some.injEq, Prod.mk.injEq] at this
          exact ⟨by rw [e1, this.1], this.2⟩
    | none =>
      have hn := rsplitDot_none hr
      simp only []
      by_cases hc : c = '.'
      · rw [if_pos hc]
        simp only [Option.some.injEq, Prod.mk.injEq]
        constructor
        · rintro ⟨rfl, rfl⟩; exact ⟨by rw [hc]; rfl, hn⟩
        · rintro ⟨e, hn'⟩
          cases b with
          | nil => injection e with _ e2; exact ⟨rfl, e2⟩
          | cons x xs =>
            injection e with _ e2
            exact absurd (by rw [e2]; simp) hn
      · rw [if_neg hc]
        constructor
        · intro h; cases h
        · rintro ⟨e, _⟩
          cases b with
          | nil => injection e with e1 _; exact absurd e1 hc
          | cons x xs =>
            injection e with _ e2
            exact absurd (by rw [e2]; simp) hn

theorem extension_iff {n e : Text} (he : '.' ∉ e) : extension n = some e ↔ ∃ b, b ≠ [] ∧ n = b ++ '.' :: e := by
  unfold extension
  constructor
  · intro h
    split at h
    · rename_i c b a hr
      injection h with h
      subst h
      exact ⟨c :: b, List.cons_ne_nil _ _, (rsplitDot_some.1 hr).1⟩
    · cases h
  · rintro ⟨b, hb, hn⟩
    have := (rsplitDot_some (t := n) (b := b) (a := e)).2 ⟨hn, he⟩
    cases b with
    | nil => exact absurd rfl hb
    | cons c cs => rw [this]

theorem stem_mabo {b : Text} (hb : b ≠ []) : stem (b ++ ".mabo".toList) = b := by
  have := (rsplitDot_some (t := b ++ ".mabo".toList) (b := b) (a := ['m', 'a', 'b', 'o'])).2 ⟨rfl, by decide⟩
  unfold stem
  cases b with
  | nil => exact absurd rfl hb
  | cons c cs => rw [this]

theorem isMabo_iff {p : Path} : isMabo p = true ↔ SchemaName p := by
  unfold isMabo SchemaName
  cases hl : p.getLast? with
  | none =>
    rw [List.getLast?_eq_none_iff] at hl
    subst hl
    simp
  | some n =>
    simp only [beq_iff_eq]
    rw [extension_iff (by decide)]
    obtain ⟨dir, rfl⟩ := List.getLast?_eq_some_iff.1 hl
    constructor
    · rintro ⟨b, hb, rfl⟩; exact ⟨dir, b, hb, rfl⟩
    · rintro ⟨dir', b, hb, e⟩
      have := List.append_inj' e rfl
      injection this.2 with h
      exact ⟨b, hb, h⟩

theorem patternSet_some {h : Host} : ∀ {ss : List String} {set : List (Path → Bool)}, patternSet h ss = some set →
    (∀ s ∈ ss, ∃ m, h.pattern s = some m) ∧ ∀ p, set.any (· p) = true ↔ ∃ s ∈ ss, ∃ m, h.pattern s = some m ∧ m p = true
  | [], set, e => by
    cases e
    exact ⟨fun _ h => (nomatch h), fun p => by simp⟩
  | s :: ss, set, e => by
    rw [patternSet] at e
    cases hm : h.pattern s with
    | none => rw [hm] at e; cases e
    | some m =>
      rw [hm] at e
      simp only [Option.map_eq_some_iff] at e
      obtain ⟨set', e', rfl⟩ := e
      obtain ⟨h1, h2⟩ := patternSet_some e'
      refine ⟨fun s' hs => ?_, fun p => ?_⟩
      · rcases List.mem_cons.1 hs with rfl | hs
        · exact ⟨m, hm⟩
        · exact h1 s' hs
      · rw [List.any_cons, Bool.or_eq_true, h2]
        constructor
        · rintro (hp | ⟨s', hs', hp⟩)
          · exact ⟨s, List.mem_cons_self, m, hm, hp⟩
          · exact ⟨s', List.mem_cons_of_mem _ hs', hp⟩
        · rintro ⟨s', hs', m', hm', hp⟩
          rcases List.mem_cons.1 hs' with rfl | hs'
          · rw [hm, Option.some.injEq] at hm'; subst hm'; exact .inl hp
          · exact .inr ⟨s', hs', m', hm', hp⟩

theorem patternSet_isSome {h : Host} : ∀ {ss : List String}, (∀ s ∈ ss, ∃ m, h.pattern s = some m) →
    ∃ set, patternSet h ss = some set
  | [], _ => ⟨[], rfl⟩
  | s :: ss, hs => by
    obtain ⟨m, hm⟩ := hs s List.mem_cons_self
    obtain ⟨set, hset⟩ := patternSet_isSome fun s' h' => hs s' (List.mem_cons_of_mem _ h')
    exact ⟨m :: set, by rw [patternSet, hm, hset]; rfl⟩

theorem selectEntries_some {base : Path} {set : List (Path → Bool)} : ∀ {es : List (Option Path)} {fs : List Path},
    selectEntries base set es = some fs ↔
      none ∉ es ∧ fs = ((es.filterMap id).filter fun p => set.any (· p) && isMabo p).map (base ++ ·)
  | [], fs => by
    rw [selectEntries]
    simp only [Option.some.injEq, List.not_mem_nil, not_false_eq_true, true_and]
    exact ⟨fun h => h ▸ rfl, fun h => h ▸ rfl⟩
  | none :: es, fs => by
    rw [selectEntries]
    simp
  | some rel :: es, fs => by
    rw [selectEntries]
    cases hr : selectEntries base set es with
    | none =>
      have : none ∈ es := Classical.byContradiction fun hc => by
        rw [selectEntries_some.2 ⟨hc, rfl⟩] at hr; cases hr
      simp [this]
    | some fs' =>
      obtain ⟨h1, h2⟩ := selectEntries_some.1 hr
      simp only [List.mem_cons, reduceCtorEq, false_or, h1, not_false_eq_true, true_and, List.filterMap_cons, id,
        List.filter_cons]
      split
      · rw [List.map_cons, ← h2, Option.some.injEq]; exact eq_comm
      · rw [← h2, Option.some.injEq]; exact eq_comm

theorem globEntries_some : ∀ {es : List (Option Path)} {fs : List Path}, globEntries es = some fs ↔
      none ∉ es ∧ fs = (es.filterMap id).filter isMabo
  | [], fs => by
    rw [globEntries]
    simp only [Option.some.injEq, List.not_mem_nil, not_false_eq_true, true_and]
    exact ⟨fun h => h ▸ rfl, fun h => h ▸ rfl⟩
  | none :: es, fs => by
    rw [globEntries]
    simp
  | some p :: es, fs => by
    rw [globEntries]
    cases hr : globEntries es with
    | none =>
      have : none ∈ es := Classical.byContradiction fun hc => by
        rw [globEntries_some.2 ⟨hc, rfl⟩] at hr; cases hr
      simp [this]
    | some fs' =>
      obtain ⟨h1, h2⟩ := globEntries_some.1 hr
      simp only [List.mem_cons, reduceCtorEq, false_or, h1, not_false_eq_true, true_and, List.filterMap_cons, id,
        List.filter_cons]
      split
      · rw [← h2, Option.some.injEq]; exact eq_comm
      · rw [← h2, Option.some.injEq]; exact eq_comm

theorem globFiles_mem {h : Host} : ∀ {ss : List String} {fs : List Path}, globFiles h ss = some fs →
    ∀ p, p ∈ fs ↔ SchemaName p ∧ ∃ s ∈ ss, ∃ es, h.glob s = some es ∧ some p ∈ es
  | [], fs, e, p => by cases e; simp
  | s :: ss, fs, e, p => by
    rw [globFiles] at e
    cases hg : h.glob s with
    | none => rw [hg] at e; cases e
    | some es =>
      rw [hg] at e
      simp only [] at e
      cases ha : globEntries es with
      | none => rw [ha] at e; cases e
      | some a =>
        cases hb : globFiles h ss with
        | none => rw [ha, hb] at e; cases e
        | some b =>
          rw [ha, hb] at e
          cases e
          have ih := globFiles_mem hb p
          rw [List.mem_append, ih, (globEntries_some.1 ha).2, List.mem_filter, isMabo_iff]
          simp only [List.mem_filterMap, id, exists_eq_right]
          constructor
          · rintro (⟨hp, hm⟩ | ⟨hm, s', hs', es', hg', hp⟩)
            · exact ⟨hm, s, List.mem_cons_self, es, hg, hp⟩
            · exact ⟨hm, s', List.mem_cons_of_mem _ hs', es', hg', hp⟩
          · rintro ⟨hm, s', hs', es', hg', hp⟩
            rcases List.mem_cons.1 hs' with rfl | hs'
            · rw [hg, Option.some.injEq] at hg'; subst hg'; exact .inl ⟨hp, hm⟩
            · exact .inr ⟨hm, s', hs', es', hg', hp⟩

end Mabo.Cli
