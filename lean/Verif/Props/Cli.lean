import Verif.Cli.Lemmas
import Verif.Props.Build
/-!
C68 (`mabo fmt` formats the selected files and touches nothing else), C69 (`mabo check`), C70 (which files belong to a
project) and C71 (a formatter that is interrupted), for every file system and every selection of files.

Vocabulary: `format std o d files` and `check std d files` — the commands on a disk `d` with the selected paths, where `o` says
how the writes go; `fmtFile` — the formatted text (see C41 to C45); `Holds`, `Selects`, `Distinct`, `Formatted`, `Killed`,
`SchemaName` — the specification, in `Spec/Cli.lean`.
-/
namespace Mabo.Props
open Mabo.Spec Mabo.Cli
open Mabo.Parse (Text Std fmtFile parseSchema printSchema)

/-! ### C68: formatting -/

/-- C68. After a successful run exactly the selected files are formatted: each holds the formatted form of its text, everything
else is as before. -/
theorem C68_success (std : Std) (o : Path → Fault) (d : Disk) (files : List Path) (hd : Distinct d files)
    (h : (format std o d files).exit = .success) : Formatted std d files (format std o d files).disk := by
  obtain ⟨h1, h2, h3, h4⟩ := format_success h
  refine ⟨h1, fun i hi => ?_, h3⟩
  obtain ⟨p, hp, hpi⟩ := hi
  obtain ⟨j, t, hj, ht⟩ := h2 p hp
  rw [hpi, Option.some.injEq] at hj
  subst hj
  have hv : visits d files i = 1 := by
    have := visits_pos.2 ⟨p, hp, hpi⟩
    have := distinct_visits (i := i) hd
    omega
  have := h4 i t ht
  rw [hv] at this
  exact ⟨t, ht, this⟩

/-- C68. The same if files are selected more than once (by two patterns, or through links), if they hold no `-0.0`. -/
theorem C68_success_repeated (std : Std) (hforms : FloatForms std.showFloat std.readFloat) (o : Path → Fault) (d : Disk)
    (files : List Path) (hz : ∀ i t, Selects d files i → Holds d i t → NoNegativeZero std t)
    (h : (format std o d files).exit = .success) : Formatted std d files (format std o d files).disk := by
  obtain ⟨h1, h2, h3, h4⟩ := format_success h
  refine ⟨h1, fun i hi => ?_, h3⟩
  have hpos := visits_pos.2 hi
  have hz := hz i
  obtain ⟨p, hp, hpi⟩ := hi
  obtain ⟨j, t, hj, ht⟩ := h2 p hp
  rw [hpi, Option.some.injEq] at hj
  subst hj
  have := h4 i t ht
  rw [times_once (C42_idempotent_all_partial std hforms t (hz t ⟨p, hp, hpi⟩ ht)) hpos] at this
  exact ⟨t, ht, this⟩

/-- Formatting is determined by the set of files. -/
theorem formatted_unique {std : Std} {d d₁ d₂ : Disk} {files files' : List Path} (hm : ∀ p, p ∈ files ↔ p ∈ files')
    (h₁ : Formatted std d files d₁) (h₂ : Formatted std d files' d₂) : d₁ = d₂ := by
  have hs : ∀ i, Selects d files i ↔ Selects d files' i := fun i =>
    ⟨fun ⟨p, hp, hi⟩ => ⟨p, (hm p).1 hp, hi⟩, fun ⟨p, hp, hi⟩ => ⟨p, (hm p).2 hp, hi⟩⟩
  refine Disk.ext' (h₁.1.trans h₂.1.symm) fun i => ?_
  by_cases hi : Selects d files i
  · obtain ⟨t, ht, e₁⟩ := h₁.2.1 i hi
    obtain ⟨u, hu, e₂⟩ := h₂.2.1 i ((hs i).1 hi)
    obtain rfl := holds_inj ht hu
    exact e₁.trans e₂.symm
  · rw [h₁.2.2 i hi, h₂.2.2 i (mt (hs i).2 hi)]

/-- C68. The order of the files does not matter. -/
theorem C68_order_irrelevant (std : Std) (o o' : Path → Fault) (d : Disk) (files files' : List Path)
    (hd : Distinct d files) (hd' : Distinct d files') (hm : ∀ p, p ∈ files ↔ p ∈ files')
    (h : (format std o d files).exit = .success) (h' : (format std o' d files').exit = .success) :
    (format std o d files).disk = (format std o' d files').disk :=
  formatted_unique hm (C68_success std o d files hd h) (C68_success std o' d files' hd' h')

/-- What comes after the first file is not affected by its formatting. -/
theorem rest_same {d : Disk} {p q : Path} {rest : List Path} {i : Nat} {b : ByteArray} (hd : Distinct d (p :: rest))
    (hi : d.inode p = some i) (hq : q ∈ rest) : (d.set i b).read q = d.read q := by
  have hne : d.inode q ≠ some i := by
    rcases (List.pairwise_cons.1 hd).1 q hq with h | h
    · rw [hi] at h; cases h
    · rw [hi] at h; exact fun e => h e.symm
  unfold Disk.read
  rw [set_inode]
  cases hj : d.inode q with
  | none => rfl
  | some j =>
    have : j ≠ i := fun e => hne (e ▸ hj)
    simp only [set_data, this, if_false]

/-- C68. A run succeeds exactly if every selected path is a readable text file and every file whose text is to change can be
written; then it opens for writing exactly the files whose text changes, and prints an error for exactly those that do not
parse, in order. -/
theorem C68_exit (std : Std) (o : Path → Fault) : ∀ (files : List Path) (d : Disk), Distinct d files →
    ((format std o d files).exit = .success ↔
      ∀ p ∈ files, ∃ t, d.read p = some t ∧ (fmtFile std t ≠ t → o p = .done)) ∧
    ((format std o d files).exit = .success →
      (∀ p, p ∈ (format std o d files).written ↔ p ∈ files ∧ ∃ t, d.read p = some t ∧ fmtFile std t ≠ t) ∧
      ∀ p, p ∈ (format std o d files).reported ↔ p ∈ files ∧ ∃ t, d.read p = some t ∧ parseSchema std t = none)
  | [], d, _ => by
    refine ⟨⟨fun _ _ h => (nomatch h), fun _ => rfl⟩, fun _ => ⟨fun p => ?_, fun p => ?_⟩⟩
    · show p ∈ [] ↔ _; simp
    · show p ∈ [] ↔ _; simp
  | p :: rest, d, hd => by
    rcases go_or_stop std o d p with ⟨i, t, hi, ht, ho⟩ | hstop
    · have hr : d.read p = some t := read_iff.2 ⟨i, hi, ht⟩
      obtain ⟨_, e2, e3, e4⟩ := format_cons (rest := rest) hi ht ho
      obtain ⟨ih1, ih2⟩ := C68_exit std o rest (d.set i (fmtFile std t).utf8Encode) (List.pairwise_cons.1 hd).2
      rw [e2, e3, e4]
      refine ⟨?_, fun hs => ?_⟩
      · rw [ih1]
        constructor
        · intro h q hq
          rcases List.mem_cons.1 hq with rfl | hq
          · exact ⟨t, hr, ho⟩
          · rw [← rest_same hd hi hq]; exact h q hq
        · intro h q hq
          rw [rest_same hd hi hq]; exact h q (List.mem_cons_of_mem _ hq)
      · obtain ⟨hw, hp⟩ := ih2 hs
        constructor
        · intro q
          rw [List.mem_append, hw, List.mem_cons]
          constructor
          · rintro (h | ⟨hq, h⟩)
            · by_cases hc : fmtFile std t ≠ t
              · rw [if_pos hc, List.mem_singleton] at h; subst h; exact ⟨.inl rfl, t, hr, hc⟩
              · rw [if_neg hc] at h; cases h
            · rw [rest_same hd hi hq] at h; exact ⟨.inr hq, h⟩
          · rintro ⟨hq | hq, h⟩
            · subst hq
              obtain ⟨u, hu, hc⟩ := h
              rw [hr, Option.some.injEq] at hu; subst hu
              rw [if_pos hc]; exact .inl (List.mem_singleton.2 rfl)
            · rw [← rest_same (b := (fmtFile std t).utf8Encode) hd hi hq] at h; exact .inr ⟨hq, h⟩
        · intro q
          rw [List.mem_append, hp, List.mem_cons]
          constructor
          · rintro (h | ⟨hq, h⟩)
            · by_cases hc : parseSchema std t = none
              · rw [if_pos hc, List.mem_singleton] at h; subst h; exact ⟨.inl rfl, t, hr, hc⟩
              · rw [if_neg hc] at h; cases h
            · rw [rest_same hd hi hq] at h; exact ⟨.inr hq, h⟩
          · rintro ⟨hq | hq, h⟩
            · subst hq
              obtain ⟨u, hu, hc⟩ := h
              rw [hr, Option.some.injEq] at hu; subst hu
              rw [if_pos hc]; exact .inl (List.mem_singleton.2 rfl)
            · rw [← rest_same (b := (fmtFile std t).utf8Encode) hd hi hq] at h; exact .inr ⟨hq, h⟩
    · have hf := (format_stop (rest := rest) hstop).1
      rw [hf]
      refine ⟨⟨(nomatch ·), fun h => ?_⟩, (nomatch ·)⟩
      obtain ⟨t, hr, ho⟩ := h p List.mem_cons_self
      obtain ⟨i, hi, ht⟩ := read_iff.1 hr
      obtain ⟨hc, hn⟩ := hstop i t hi ht
      exact absurd (ho hc) hn

/-- A run over files that need no formatting. -/
theorem format_noop {std : Std} {o : Path → Fault} {d : Disk} : ∀ {files : List Path},
    (∀ p ∈ files, ∃ t, d.read p = some t ∧ fmtFile std t = t) →
    (format std o d files).exit = .success ∧ (format std o d files).disk = d ∧ (format std o d files).written = []
  | [], _ => ⟨rfl, rfl, rfl⟩
  | p :: rest, h => by
    obtain ⟨t, hr, hf⟩ := h p List.mem_cons_self
    obtain ⟨i, hi, ht⟩ := read_iff.1 hr
    obtain ⟨e1, e2, e3, _⟩ := format_cons (std := std) (o := o) (rest := rest) hi ht fun hc => absurd hf hc
    rw [hf, set_same ht] at e1 e2 e3
    obtain ⟨h1, h2, h3⟩ := format_noop (std := std) (o := o) fun q hq => h q (List.mem_cons_of_mem _ hq)
    exact ⟨e2.trans h1, e1.trans h2, by rw [e3, h3]; simp⟩

/-- C68. A second run succeeds, changes nothing and does not even open a file for writing (files without `-0.0`; repeated
files are allowed). -/
theorem C68_second_run (std : Std) (hforms : FloatForms std.showFloat std.readFloat) (o o' : Path → Fault) (d : Disk)
    (files : List Path) (hz : ∀ i t, Selects d files i → Holds d i t → NoNegativeZero std t)
    (h : (format std o d files).exit = .success) :
    (format std o' (format std o d files).disk files).exit = .success ∧
    (format std o' (format std o d files).disk files).disk = (format std o d files).disk ∧
    (format std o' (format std o d files).disk files).written = [] := by
  obtain ⟨h1, h2, _⟩ := C68_success_repeated std hforms o d files hz h
  refine format_noop fun p hp => ?_
  obtain ⟨i, _, hi, _⟩ := (format_success h).2.1 p hp
  obtain ⟨t, ht, ht'⟩ := h2 i ⟨p, hp, hi⟩
  exact ⟨fmtFile std t, read_iff.2 ⟨i, by rw [h1]; exact hi, ht'⟩,
    C42_idempotent_all_partial std hforms t (hz i t ⟨p, hp, hi⟩ ht)⟩

/-- C68. What a successful run does to the schemas: every selected file that parsed and whose literals survive printing (see
C41) still parses, to the same schema. -/
theorem C68_keeps_schemas (std : Std) (o : Path → Fault) (d : Disk) (files : List Path) (hd : Distinct d files)
    (h : (format std o d files).exit = .success) (p : Path) (hp : p ∈ files) (t : Text) (ht : d.read p = some t)
    (s : Ast.Schema) (hs : parseSchema std t = some s) (hl : SurvivingLiterals std s) :
    ∃ t', (format std o d files).disk.read p = some t' ∧ parseSchema std t' = some s ∧ t' = printSchema std s := by
  obtain ⟨h1, h2, _⟩ := C68_success std o d files hd h
  obtain ⟨i, hi, hti⟩ := read_iff.1 ht
  obtain ⟨u, hu, hu'⟩ := h2 i ⟨p, hp, hi⟩
  obtain rfl := holds_inj hti hu
  exact ⟨_, read_iff.2 ⟨i, by rw [h1]; exact hi, hu'⟩, C41_fmt_preserves_partial std t s hs hl, fmtFile_accepted std hs⟩

/-- C68. A failed run stops at a file that cannot be read or written: the files before it are formatted (as by a successful
run on them), the files after it are not looked at, and the file itself is unchanged unless the writing of it broke off. -/
theorem C68_failure (std : Std) (o : Path → Fault) : ∀ (files : List Path) (d : Disk),
    (format std o d files).exit = .failure →
    ∃ pre p post, files = pre ++ p :: post ∧ (format std o d pre).exit = .success ∧
      ((format std o d files).disk = (format std o d pre).disk ∧
        ((format std o d pre).disk.read p = none ∨ o p = .refused) ∨
      ∃ i t n, (format std o d pre).disk.inode p = some i ∧ Holds (format std o d pre).disk i t ∧ o p = .cut n ∧
        fmtFile std t ≠ t ∧
        (format std o d files).disk = (format std o d pre).disk.set i ((fmtFile std t).utf8Encode.extract 0 n))
  | [], d, h => by cases h
  | p :: rest, d, h => by
    rcases go_or_stop std o d p with ⟨i, t, hi, ht, ho⟩ | hstop
    · obtain ⟨e1, e2, _⟩ := format_cons (rest := rest) hi ht ho
      rw [e2] at h
      obtain ⟨pre, q, post, rfl, hs, hr⟩ := C68_failure std o rest _ h
      obtain ⟨e1', e2', _⟩ := format_cons (rest := pre) hi ht ho
      rw [← e1, ← e1'] at hr
      exact ⟨p :: pre, q, post, rfl, by rw [e2']; exact hs, hr⟩
    · obtain ⟨_, _, hcase⟩ := format_stop (rest := rest) hstop
      refine ⟨[], p, rest, rfl, rfl, ?_⟩
      rcases hcase with ⟨hd, _, hn⟩ | ⟨i, t, n, hi, ht, hc, ho, hd, _⟩
      · refine .inl ⟨hd, ?_⟩
        show d.read p = none ∨ _
        cases hr : d.read p with
        | none => exact .inl rfl
        | some t =>
          obtain ⟨i, hi, ht⟩ := read_iff.1 hr
          have hnd := (hstop i t hi ht).2
          cases ho : o p with
          | done => exact absurd ho hnd
          | refused => exact .inr rfl
          | cut n => have := hn n ho; rw [hr] at this; cases this
      · exact .inr ⟨i, t, n, hi, ht, ho, hc, hd⟩

/-! ### C71: interruption -/

/-- The states of a run that fails are among those of an interrupted one. -/
theorem C71_failed_is_killed (std : Std) (o : Path → Fault) : ∀ (files : List Path) (d : Disk),
    Killed std d files (format std o d files).disk
  | [], d => .now
  | p :: rest, d => by
    rcases go_or_stop std o d p with ⟨i, t, hi, ht, ho⟩ | hstop
    · rw [(format_cons (rest := rest) hi ht ho).1]
      exact .later hi ht (C71_failed_is_killed std o rest _)
    · rcases (format_stop (rest := rest) hstop).2.2 with ⟨hd, _⟩ | ⟨i, t, n, hi, ht, hc, _, hd, _⟩
      · rw [hd]; exact .now
      · rw [hd]; exact .writing hi ht hc ⟨n, rfl⟩

/-- C71 (partial: one file may be damaged, see below). Whenever the formatter is killed, every file but at most one is as before
or formatted (as often as it is selected, at most), files that are not selected are untouched, and the exception holds the
first bytes of its formatted text. -/
theorem C71_interrupted_partial (std : Std) (files : List Path) (d d' : Disk) (hd : Distinct d files)
    (h : Killed std d files d') :
    d'.inode = d.inode ∧ ∃ x : Option Nat,
      (∀ i, some i ≠ x → d'.data i = d.data i ∨
        Selects d files i ∧ ∃ t, Holds d i t ∧ Holds d' i (fmtFile std t)) ∧
      ∀ i, some i = x → Selects d files i ∧ ∃ t b, Holds d i t ∧ d'.data i = some b ∧ Truncated b (fmtFile std t) := by
  induction h with
  | now => exact ⟨rfl, none, fun _ _ => .inl rfl, fun _ h => nomatch h⟩
  | @writing d p rest i t b hi ht hc hb =>
    refine ⟨rfl, some i, fun j hj => .inl ?_, fun j hj => ?_⟩
    · rw [set_data, if_neg fun e => hj (by rw [e])]
    · cases hj
      exact ⟨⟨p, List.mem_cons_self, hi⟩, t, b, ht, by rw [set_data, if_pos rfl], hb⟩
  | @later d d' p rest i t hi ht hk ih =>
    obtain ⟨h1, x, h2, h3⟩ := ih (List.pairwise_cons.1 hd).2
    have hns : ¬ Selects d rest i := fun ⟨q, hq, hqi⟩ => by
      rcases (List.pairwise_cons.1 hd).1 q hq with h | h
      · rw [hi] at h; cases h
      · exact h (hi.trans hqi.symm)
    have up : ∀ {j}, Selects d rest j → Selects d (p :: rest) j := fun ⟨q, hq, hqj⟩ => ⟨q, List.mem_cons_of_mem _ hq, hqj⟩
    refine ⟨h1, x, fun j hj => ?_, fun j hj => ?_⟩
    · rcases h2 j hj with e | ⟨hs, u, hu, hu'⟩
      · by_cases hji : j = i
        · subst hji
          refine .inr ⟨⟨p, List.mem_cons_self, hi⟩, t, ht, ?_⟩
          unfold Holds
          rw [e]; exact set_holds
        · left; rw [e, set_data, if_neg hji]
      · have hji : j ≠ i := fun e => hns (e ▸ hs)
        exact .inr ⟨up hs, u, (set_holds_ne hji).1 hu, hu'⟩
    · obtain ⟨hs, u, b, hu, hb⟩ := h3 j hj
      have hji : j ≠ i := fun e => hns (e ▸ hs)
      exact ⟨up hs, u, b, (set_holds_ne hji).1 hu, hb⟩

/-! ### C69: checking -/

/-- C69 (partial: only syntax is looked at, see below). `mabo check` changes no file; it succeeds exactly if all selected files
are readable text, and then has printed an error for exactly the files that do not parse. -/
theorem C69_check_partial (std : Std) (d : Disk) : ∀ files : List Path,
    (check std d files).disk = d ∧ (check std d files).written = [] ∧
    ((check std d files).exit = .success ↔ ∀ p ∈ files, ∃ t, d.read p = some t) ∧
    ((check std d files).exit = .success → (check std d files).reported =
      files.filter fun p => ((d.read p).bind (parseSchema std)).isNone)
  | [] => ⟨rfl, rfl, ⟨fun _ _ h => (nomatch h), fun _ => rfl⟩, fun _ => rfl⟩
  | p :: rest => by
    obtain ⟨_, ih2, ih3, ih4⟩ := C69_check_partial std d rest
    cases hr : d.read p with
    | none =>
      have e : check std d (p :: rest) = ⟨d, .failure, [], []⟩ := by rw [check, hr]
      rw [e]
      refine ⟨rfl, rfl, ⟨(nomatch ·), fun h => ?_⟩, (nomatch ·)⟩
      obtain ⟨t, ht⟩ := h p List.mem_cons_self
      rw [hr] at ht; cases ht
    | some t =>
      obtain ⟨e1, e2, e3⟩ := check_cons (std := std) (rest := rest) hr
      refine ⟨check_disk, e3.trans ih2, ?_, ?_⟩
      · rw [e1, ih3]
        constructor
        · intro h q hq
          rcases List.mem_cons.1 hq with rfl | hq
          · exact ⟨t, hr⟩
          · exact h q hq
        · exact fun h q hq => h q (List.mem_cons_of_mem _ hq)
      · rw [e1, e2]
        intro h
        rw [ih4 h, List.filter_cons, hr]
        cases hs : parseSchema std t <;> simp [hs]

/-- What the documentation of `mabo check` says it does with a set of files: it succeeds exactly if all parse, all are valid
and all names resolve. -/
def ChecksEverything (std : Std) : Prop :=
  ∀ (d : Disk) (files : List Path) (inputs : List (String × Text)), readAll d files = some inputs →
    ((check std d files).exit = .success ↔
      (∀ i ∈ inputs, ∃ s, parseSchema std i.2 = some s ∧ Compiler.validateSchema true s = .ok) ∧
      Resolve.resolveSchemas id (schemasOf std inputs) = .ok)

/-- A disk with one file `a.mabo`. -/
noncomputable def oneFile (t : Text) : Disk := ⟨fun p => if p = [['a', '.', 'm', 'a', 'b', 'o']] then some 0 else none, fun _ => some t.utf8Encode⟩

theorem oneFile_read (t : Text) : (oneFile t).read [['a', '.', 'm', 'a', 'b', 'o']] = some t :=
  read_iff.2 ⟨0, rfl, rfl⟩

theorem oneFile_check (std : Std) (t : Text) : (check std (oneFile t) [[['a', '.', 'm', 'a', 'b', 'o']]]).exit = .success ∧
    (check std (oneFile t) [[['a', '.', 'm', 'a', 'b', 'o']]]).reported =
      if parseSchema std t = none then [[['a', '.', 'm', 'a', 'b', 'o']]] else [] := by
  obtain ⟨_, _, h3, h4⟩ := C69_check_partial std (oneFile t) [[['a', '.', 'm', 'a', 'b', 'o']]]
  have hs := h3.2 fun p hp => by
    rw [List.mem_singleton] at hp; subst hp; exact ⟨t, oneFile_read t⟩
  refine ⟨hs, ?_⟩
  rw [h4 hs, List.filter_cons, oneFile_read]
  cases hp : parseSchema std t <;> simp [hp]

/-- The full claim is false: a file that is no schema is reported, but the check succeeds. -/
theorem C69_fails_for_syntax_errors : ¬ ChecksEverything C37_std := by
  intro h
  have hp : (parseSchema C37_std "struct".toList).isNone = true := by decide +kernel
  have := (h (oneFile "struct".toList) [[['a', '.', 'm', 'a', 'b', 'o']]] [("a", "struct".toList)] (by
    rw [readAll, oneFile_read]; decide +kernel)).1 (oneFile_check _ _).1
  obtain ⟨s, hs, _⟩ := this.1 ("a", "struct".toList) (List.mem_singleton.2 rfl)
  rw [hs] at hp; cases hp

/-- …and files with equal ids, or that use names which do not exist, are not even reported. -/
theorem C69_fails_silently (t : Text)
    (ht : t = "struct A { x: u8 @1, y: u8 @1 }".toList ∨ t = "use b::C;\nstruct A { x: Missing @1 }".toList) :
    (check C37_std (oneFile t) [[['a', '.', 'm', 'a', 'b', 'o']]]).exit = .success ∧
    (check C37_std (oneFile t) [[['a', '.', 'm', 'a', 'b', 'o']]]).reported = [] ∧
    ∀ valid, (Build.compile id C37_std valid true [("a", t)]).result ≠ .ok () := by
  obtain ⟨h1, h2⟩ := oneFile_check C37_std t
  refine ⟨h1, ?_, fun valid => ?_⟩
  · rw [h2]
    have : (parseSchema C37_std t).isSome = true := by rcases ht with rfl | rfl <;> decide +kernel
    rw [if_neg fun h => by rw [h] at this; cases this]
  · refine (C48_nothing_on_bad_input id C37_std valid true [("a", t)] ?_).1
    rcases ht with rfl | rfl
    · refine .inl ⟨_, List.mem_singleton.2 rfl, fun s hs hv => ?_⟩
      have : (match parseSchema C37_std "struct A { x: u8 @1, y: u8 @1 }".toList with
        | none => false
        | some s => match Compiler.validateSchema true s with
          | .ok => true
          | _ => false) = false := by decide +kernel
      simp only [] at hs
      rw [hs] at this
      simp only [hv] at this
      cases this
    · right
      intro hr
      have : (match Resolve.resolveSchemas id (schemasOf C37_std [("a", "use b::C;\nstruct A { x: Missing @1 }".toList)]) with
        | .ok => true
        | _ => false) = false := by decide +kernel
      rw [hr] at this
      cases this

/-! ### C70: the files of a project -/

/-- C70. The files of a project: exactly the entries found below its directory that have a name ending in `.mabo` and match one
of the patterns, each once, in the order of the walk; selecting fails exactly if a pattern is malformed or an entry cannot be
looked at. -/
theorem C70_selected (h : Host) (base : Path) (patterns : List String) :
    ((∃ files, collectFiles h base patterns = some files) ↔
      (∀ s ∈ patterns, ∃ m, h.pattern s = some m) ∧ none ∉ h.walk base) ∧
    ∀ files, collectFiles h base patterns = some files →
      (∀ p, p ∈ files ↔ ∃ rel, p = base ++ rel ∧ some rel ∈ h.walk base ∧ SchemaName rel ∧
        ∃ s ∈ patterns, ∃ m, h.pattern s = some m ∧ m rel = true) ∧
      ((h.walk base).Nodup → files.Nodup) ∧ List.Sublist (files.map some) ((h.walk base).map fun e => e.map (base ++ ·)) := by
  constructor
  · constructor
    · rintro ⟨files, hf⟩
      unfold collectFiles at hf
      cases hs : patternSet h patterns with
      | none => rw [hs] at hf; cases hf
      | some set =>
        rw [hs] at hf
        exact ⟨(patternSet_some hs).1, (selectEntries_some.1 hf).1⟩
    · rintro ⟨h1, h2⟩
      obtain ⟨set, hs⟩ := patternSet_isSome h1
      exact ⟨_, by unfold collectFiles; rw [hs]; exact selectEntries_some.2 ⟨h2, rfl⟩⟩
  · intro files hf
    unfold collectFiles at hf
    cases hs : patternSet h patterns with
    | none => rw [hs] at hf; cases hf
    | some set =>
      rw [hs] at hf
      obtain ⟨hn, rfl⟩ := selectEntries_some.1 hf
      have hsub : List.Sublist ((((h.walk base).filterMap id).filter fun p => set.any (· p) && isMabo p).map some) (h.walk base) := by
        have : ∀ es : List (Option Path), none ∉ es → (es.filterMap id).map some = es := by
          intro es
          induction es with
          | nil => intro _; rfl
          | cons e es ih =>
            intro hne
            cases e with
            | none => exact absurd List.mem_cons_self hne
            | some r => simp only [List.filterMap_cons, id, List.map_cons, ih fun hm => hne (List.mem_cons_of_mem _ hm)]
        have e := this _ hn
        have hl : List.Sublist (((h.walk base).filterMap id).map some) (h.walk base) := by
          rw [e]; exact List.Sublist.refl _
        exact ((List.filter_sublist (p := fun p => set.any (· p) && isMabo p) (l := (h.walk base).filterMap id)).map some).trans hl
      refine ⟨fun p => ?_, fun hnd => ?_, ?_⟩
      · simp only [List.mem_map, List.mem_filter, List.mem_filterMap, id, exists_eq_right, Bool.and_eq_true, isMabo_iff,
          (patternSet_some hs).2]
        constructor
        · rintro ⟨rel, ⟨h1, h2, h3⟩, rfl⟩; exact ⟨rel, rfl, h1, h3, h2⟩
        · rintro ⟨rel, rfl, h1, h3, h2⟩; exact ⟨rel, ⟨h1, h2, h3⟩, rfl⟩
      · have hn2 := List.Nodup.sublist hsub hnd
        unfold List.Nodup at hn2 ⊢
        rw [List.pairwise_map] at hn2 ⊢
        exact hn2.imp fun hne e => hne (by rw [List.append_cancel_left e])
      · rw [List.map_map]
        have := hsub.map fun e : Option Path => e.map (base ++ ·)
        rw [List.map_map] at this
        exact this

/-- C70. Order and repetition of the patterns do not matter. -/
theorem C70_patterns_as_set (h : Host) (base : Path) (ps qs : List String) (hm : ∀ s, s ∈ ps ↔ s ∈ qs) :
    collectFiles h base ps = collectFiles h base qs := by
  unfold collectFiles
  by_cases hv : ∀ s ∈ ps, ∃ m, h.pattern s = some m
  · have hv' : ∀ s ∈ qs, ∃ m, h.pattern s = some m := fun s hs => hv s ((hm s).2 hs)
    obtain ⟨a, ha⟩ := patternSet_isSome hv
    obtain ⟨b, hb⟩ := patternSet_isSome hv'
    rw [ha, hb]
    have e : ∀ p, a.any (· p) = b.any (· p) := fun p => by
      rw [Bool.eq_iff_iff, (patternSet_some ha).2, (patternSet_some hb).2]
      exact ⟨fun ⟨s, hs, hr⟩ => ⟨s, (hm s).1 hs, hr⟩, fun ⟨s, hs, hr⟩ => ⟨s, (hm s).2 hs, hr⟩⟩
    have : ∀ es, selectEntries base a es = selectEntries base b es := by
      intro es
      induction es with
      | nil => rfl
      | cons x xs ih =>
        cases x with
        | none => rfl
        | some r => rw [selectEntries, selectEntries, ih, e r]
    exact this _
  · have hn : patternSet h ps = none := by
      cases hp : patternSet h ps with
      | none => rfl
      | some set => exact absurd (patternSet_some hp).1 hv
    have hn' : patternSet h qs = none := by
      cases hp : patternSet h qs with
      | none => rfl
      | some set => exact absurd (fun s hs => (patternSet_some hp).1 s ((hm s).1 hs)) hv
    rw [hn, hn']

/-- C70. Files given on the command line: exactly what the patterns match, if it has a name ending in `.mabo`; the project is
not looked at. -/
theorem C70_given_files (h : Host) (dir : Path) (patterns : List String) (hne : patterns ≠ []) (files : List Path)
    (hf : projectOrFiles h dir patterns = some files) (p : Path) :
    p ∈ files ↔ SchemaName p ∧ ∃ s ∈ patterns, ∃ es, h.glob s = some es ∧ some p ∈ es := by
  unfold projectOrFiles at hf
  rw [if_neg (by simpa using hne)] at hf
  exact globFiles_mem hf p

theorem readAll_some {d : Disk} : ∀ {files : List Path} {inputs : List (String × Text)}, readAll d files = some inputs →
    (∀ p ∈ files, ∃ t, d.read p = some t) ∧
    Build.Each (fun p i => d.read p = some i.2 ∧ ∃ dir n, p = dir ++ [n] ∧ i.1 = String.ofList (stem n)) files inputs
  | [], inputs, h => by cases h; exact ⟨fun _ h => (nomatch h), .nil⟩
  | p :: rest, inputs, h => by
    rw [readAll] at h
    cases hr : d.read p with
    | none => rw [hr] at h; cases h
    | some t =>
      cases hl : p.getLast? with
      | none => rw [hr, hl] at h; cases h
      | some n =>
        cases hi : readAll d rest with
        | none => rw [hr, hl, hi] at h; cases h
        | some r =>
          rw [hr, hl, hi] at h
          cases h
          obtain ⟨h1, h2⟩ := readAll_some hi
          obtain ⟨dir, rfl⟩ := List.getLast?_eq_some_iff.1 hl
          refine ⟨fun q hq => ?_, .cons ⟨hr, dir, n, rfl, rfl⟩ h2⟩
          rcases List.mem_cons.1 hq with rfl | hq
          · exact ⟨t, hr⟩
          · exact h1 q hq

/-- C70. A build that succeeds has read every file of the project, and compiled exactly them: under the name of the file without
`.mabo`, with the text of the file. -/
theorem C70_build_inputs (std : Std) (h : Host) (order : Resolve.Order) (valid : Simplify.Schema → Bool) (checked : Bool)
    (dir : Path) (d : Disk) (hok : (buildCommand std h order valid checked dir d).result = .ok ()) :
    ∃ patterns files inputs, h.project dir = some patterns ∧ collectFiles h dir patterns = some files ∧
      buildCommand std h order valid checked dir d = Build.compile order std valid checked inputs ∧
      (∀ p ∈ files, ∃ parent name t, p = parent ++ [name ++ ".mabo".toList] ∧ d.read p = some t ∧ (String.ofList name, t) ∈ inputs) ∧
      ∀ i ∈ inputs, ∃ p ∈ files, ∃ parent name, p = parent ++ [name ++ ".mabo".toList] ∧ i.1 = String.ofList name ∧
        d.read p = some i.2 := by
  unfold buildCommand load at hok
  cases hp : h.project dir with
  | none => rw [hp] at hok; cases hok
  | some patterns =>
    rw [hp] at hok
    cases hf : collectFiles h dir patterns with
    | none => simp only [hf] at hok; cases hok
    | some files =>
      simp only [hf] at hok
      cases hi : readAll d files with
      | none => rw [hi] at hok; cases hok
      | some inputs =>
        obtain ⟨h1, h2⟩ := readAll_some hi
        have name : ∀ p ∈ files, SchemaName p := fun p hpm => by
          obtain ⟨rel, rfl, _, ⟨dir', n, hn, rfl⟩, _⟩ := (((C70_selected h dir patterns).2 files hf).1 p).1 hpm
          exact ⟨dir ++ dir', n, hn, by rw [List.append_assoc]⟩
        refine ⟨patterns, files, inputs, rfl, hf, ?_, fun p hpm => ?_, fun i him => ?_⟩
        · unfold buildCommand load
          rw [hp]; simp only [hf, hi]
        · obtain ⟨i, him, hr, dir', n, e1, e2⟩ := h2.left p hpm
          obtain ⟨parent, nm, hn, e⟩ := name p hpm
          have := List.append_inj' (e1.symm.trans e) rfl
          injection this.2 with e3
          subst e3
          refine ⟨parent, nm, i.2, e, hr, ?_⟩
          rw [stem_mabo hn] at e2
          rw [← e2]; exact him
        · obtain ⟨p, hpm, hr, dir', n, e1, e2⟩ := h2.right i him
          obtain ⟨parent, nm, hn, e⟩ := name p hpm
          have := List.append_inj' (e1.symm.trans e) rfl
          injection this.2 with e3
          subst e3
          rw [stem_mabo hn] at e2
          exact ⟨p, hpm, parent, nm, e, e2, hr⟩

/-- "The final file list" holds files only, what the documentation of `Package::files` says: if everything the walk finds exists
on the disk, and everything but directories is readable, then all that is selected can be read. -/
def OnlyFiles : Prop := ∀ (h : Host) (d : Disk) (base : Path) (patterns : List String) (files : List Path) (dirs : List Nat),
  (∀ rel, some rel ∈ h.walk base → ∃ i, d.inode (base ++ rel) = some i ∧ (i ∈ dirs ↔ d.data i = none)) →
  collectFiles h base patterns = some files → ∀ p ∈ files, ∃ i b, d.inode p = some i ∧ d.data i = some b

/-- A project with the pattern `**`, the file `a.mabo` and the empty directory `b.mabo`. -/
def dirHost : Host where
  pattern := fun s => if s = "**" then some fun _ => true else none
  walk := fun _ => [some [], some ["a.mabo".toList], some ["b.mabo".toList]]
  glob := fun _ => none
  project := fun _ => some ["**"]

noncomputable def dirDisk (t : Text) : Disk where
  inode := fun p => if p = ["a.mabo".toList] then some 0 else if p = ["b.mabo".toList] then some 1
    else if p = [] then some 2 else none
  data := fun i => if i = 0 then some t.utf8Encode else none

/-- The full claim is false: directories with such names are taken for files, and every command on the project fails, whatever
the schema file says. -/
theorem C70_fails_for_directories (std : Std) (t : Text) :
    ¬ OnlyFiles ∧ load dirHost [] = some [["a.mabo".toList], ["b.mabo".toList]] ∧
    (checkCommand std dirHost [] [] (dirDisk t)).exit = .failure ∧
    (∀ o, (fmtCommand std dirHost o [] [] (dirDisk t)).exit = .failure) ∧
    ∀ order valid checked, (buildCommand std dirHost order valid checked [] (dirDisk t)).result = .err := by
  have hl : load dirHost [] = some [["a.mabo".toList], ["b.mabo".toList]] := by decide +kernel
  have hc : collectFiles dirHost [] ["**"] = some [["a.mabo".toList], ["b.mabo".toList]] := by decide +kernel
  have hr : (dirDisk t).read ["b.mabo".toList] = none := rfl
  refine ⟨fun hof => ?_, hl, ?_, fun o => ?_, fun order valid checked => ?_⟩
  · obtain ⟨i, b, hi, hb⟩ := hof dirHost (dirDisk t) [] ["**"] _ [1, 2] (fun rel hrel => by
      have hw : some rel ∈ [some [], some ["a.mabo".toList], some ["b.mabo".toList]] := hrel
      simp only [List.mem_cons, Option.some.injEq, List.not_mem_nil, or_false] at hw
      rcases hw with rfl | rfl | rfl
      · exact ⟨2, rfl, fun _ => rfl, fun _ => by decide⟩
      · exact ⟨0, rfl, fun h => absurd h (by decide), fun h => nomatch (show some t.utf8Encode = none from h)⟩
      · exact ⟨1, rfl, fun _ => rfl, fun _ => by decide⟩) hc ["b.mabo".toList] (by simp)
    cases hi
    cases hb
  · unfold checkCommand projectOrFiles
    rw [List.isEmpty_nil, if_pos rfl, hl]
    simp only []
    cases he : (check std (dirDisk t) [["a.mabo".toList], ["b.mabo".toList]]).exit with
    | failure => rfl
    | success =>
      obtain ⟨u, hu⟩ := (C69_check_partial std (dirDisk t) _).2.2.1.1 he ["b.mabo".toList] (by simp)
      rw [hr] at hu; cases hu
  · unfold fmtCommand projectOrFiles
    rw [List.isEmpty_nil, if_pos rfl, hl]
    simp only []
    cases he : (format std o (dirDisk t) [["a.mabo".toList], ["b.mabo".toList]]).exit with
    | failure => rfl
    | success =>
      obtain ⟨i, u, hi, hu⟩ := (format_success he).2.1 ["b.mabo".toList] (by simp)
      cases hi
      cases hu
  · unfold buildCommand
    rw [hl]
    have : readAll (dirDisk t) [["a.mabo".toList], ["b.mabo".toList]] = none := by
      rw [readAll, readAll, hr]
      cases (dirDisk t).read ["a.mabo".toList] <;> rfl
    simp only [this]

/-! ### Examples -/

/-- A disk with an unformatted file, a file that is no schema, one that is formatted already, and one that is not selected. -/
noncomputable def fmtDisk : Disk where
  inode := fun p => if p = [['a']] then some 0 else if p = [['b']] then some 1 else if p = [['c']] then some 2
    else if p = [['d']] then some 3 else none
  data := fun i => if i = 0 then some "struct  A { x : u8 @1 }".toList.utf8Encode else if i = 1 then some "struct".toList.utf8Encode
    else if i = 2 then some "type C = u8;\n".toList.utf8Encode else some "type  D = u8;".toList.utf8Encode

theorem fmtDisk_texts :
    fmtFile C37_std "struct  A { x : u8 @1 }".toList = "struct A {\n    x: u8 @1\n}\n\n".toList ∧
    (parseSchema C37_std "struct".toList).isNone = true ∧ fmtFile C37_std "type C = u8;\n".toList = "type C = u8;\n".toList ∧
    (parseSchema C37_std "struct  A { x : u8 @1 }".toList).isSome = true ∧
    (parseSchema C37_std "type C = u8;\n".toList).isSome = true := by decide +kernel

/-- What these theorems speak about: a run that formats one file, reports one, leaves one as it is, and does not touch the
rest. -/
theorem C68_example : Distinct fmtDisk [[['a']], [['b']], [['c']]] ∧
    (format C37_std (fun _ => .done) fmtDisk [[['a']], [['b']], [['c']]]).exit = .success ∧
    (format C37_std (fun _ => .done) fmtDisk [[['a']], [['b']], [['c']]]).disk.read [['a']] =
      some "struct A {\n    x: u8 @1\n}\n\n".toList ∧
    (format C37_std (fun _ => .done) fmtDisk [[['a']], [['b']], [['c']]]).disk.read [['d']] = some "type  D = u8;".toList ∧
    (∀ p, p ∈ (format C37_std (fun _ => .done) fmtDisk [[['a']], [['b']], [['c']]]).written ↔ p = [['a']]) ∧
    ∀ p, p ∈ (format C37_std (fun _ => .done) fmtDisk [[['a']], [['b']], [['c']]]).reported ↔ p = [['b']] := by
  have hd : Distinct fmtDisk [[['a']], [['b']], [['c']]] := by
    unfold Distinct
    simp only [List.pairwise_cons, List.mem_cons, List.not_mem_nil, or_false, forall_eq_or_imp, forall_eq, false_implies,
      implies_true, List.Pairwise.nil, and_true]
    exact ⟨⟨.inr (by decide), .inr (by decide)⟩, .inr (by decide)⟩
  have ra : fmtDisk.read [['a']] = some "struct  A { x : u8 @1 }".toList := read_iff.2 ⟨0, rfl, rfl⟩
  have rb : fmtDisk.read [['b']] = some "struct".toList := read_iff.2 ⟨1, rfl, rfl⟩
  have rc : fmtDisk.read [['c']] = some "type C = u8;\n".toList := read_iff.2 ⟨2, rfl, rfl⟩
  obtain ⟨ta, tb, tc, sa, sc⟩ := fmtDisk_texts
  have tb' := Cli.fmtFile_rejected (Option.isNone_iff_eq_none.1 tb)
  obtain ⟨h1, h2⟩ := C68_exit C37_std (fun _ => .done) [[['a']], [['b']], [['c']]] fmtDisk hd
  have hs := h1.2 fun p hp => by
    simp only [List.mem_cons, List.not_mem_nil, or_false] at hp
    rcases hp with rfl | rfl | rfl
    · exact ⟨_, ra, fun _ => rfl⟩
    · exact ⟨_, rb, fun _ => rfl⟩
    · exact ⟨_, rc, fun _ => rfl⟩
  obtain ⟨hw, hr⟩ := h2 hs
  obtain ⟨f1, f2, f3⟩ := C68_success C37_std (fun _ => .done) fmtDisk _ hd hs
  have ne : "struct A {\n    x: u8 @1\n}\n\n".toList ≠ "struct  A { x : u8 @1 }".toList := by decide
  refine ⟨hd, hs, ?_, ?_, fun p => ?_, fun p => ?_⟩
  · obtain ⟨t, ht, ht'⟩ := f2 0 ⟨[['a']], by simp, rfl⟩
    obtain rfl := holds_inj (u := "struct  A { x : u8 @1 }".toList) ht rfl
    exact read_iff.2 ⟨0, by rw [f1]; rfl, ta ▸ ht'⟩
  · refine read_iff.2 ⟨3, by rw [f1]; rfl, ?_⟩
    refine (f3 3 fun ⟨p, hp, hi⟩ => ?_).trans rfl
    simp only [List.mem_cons, List.not_mem_nil, or_false] at hp
    rcases hp with rfl | rfl | rfl <;> exact absurd hi (by decide)
  · rw [hw]
    simp only [List.mem_cons, List.not_mem_nil, or_false]
    constructor
    · rintro ⟨rfl | rfl | rfl, t, ht, hc⟩
      · rfl
      · rw [rb, Option.some.injEq] at ht; subst ht; exact absurd tb' hc
      · rw [rc, Option.some.injEq] at ht; subst ht; exact absurd tc hc
    · rintro rfl
      exact ⟨.inl rfl, _, ra, by rw [ta]; exact ne⟩
  · rw [hr]
    simp only [List.mem_cons, List.not_mem_nil, or_false]
    constructor
    · rintro ⟨rfl | rfl | rfl, t, ht, hc⟩
      · rw [ra, Option.some.injEq] at ht; subst ht; rw [hc] at sa; cases sa
      · rfl
      · rw [rc, Option.some.injEq] at ht; subst ht; rw [hc] at sc; cases sc
    · rintro rfl
      exact ⟨.inr (.inl rfl), _, rb, Option.isNone_iff_eq_none.1 tb⟩

/-- Selecting a file twice is not always the same as selecting it once: the constant `-0.0` becomes `0`. -/
theorem C68_fails_for_twice :
    let p : Path := [['a', '.', 'm', 'a', 'b', 'o']]
    let d := oneFile "const A: f64 = -0.0;\n".toList
    (format C42_std (fun _ => .done) d [p]).disk.read p = some "const A: f64 = -0;\n".toList ∧
    (format C42_std (fun _ => .done) d [p, p]).disk.read p = some "const A: f64 = 0;\n".toList := by
  intro p d
  obtain ⟨t1, t2⟩ := C42_fails_for_negative_zero
  have h0 : Holds d 0 "const A: f64 = -0.0;\n".toList := rfl
  obtain ⟨a1, _⟩ := format_cons (std := C42_std) (o := fun _ => .done) (rest := [p]) (show d.inode p = some 0 from rfl) h0 fun _ => rfl
  obtain ⟨b1, _⟩ := format_cons (std := C42_std) (o := fun _ => .done) (rest := []) (show d.inode p = some 0 from rfl) h0 fun _ => rfl
  rw [t1] at a1 b1
  obtain ⟨c1, _⟩ := format_cons (std := C42_std) (o := fun _ => .done) (rest := [])
    (show (d.set 0 "const A: f64 = -0;\n".toList.utf8Encode).inode p = some 0 from rfl) set_holds fun _ => rfl
  rw [t2] at c1
  exact ⟨by rw [b1]; exact read_iff.2 ⟨0, rfl, set_holds⟩, by rw [a1, c1]; exact read_iff.2 ⟨0, rfl, set_holds⟩⟩

/-- What one expects of an interrupted formatter: every file holds its text or the formatted text. -/
def NothingLost (std : Std) : Prop := ∀ (files : List Path) (d d' : Disk), Distinct d files → Killed std d files d' →
  ∀ i t, Holds d i t → Holds d' i t ∨ Holds d' i (fmtFile std t)

/-- The full claim is false: files are truncated before they are written anew. -/
theorem C71_fails_while_writing : ¬ NothingLost C37_std := by
  intro h
  obtain ⟨ta, _⟩ := fmtDisk_texts
  have h0 : Holds (oneFile "struct  A { x : u8 @1 }".toList) 0 "struct  A { x : u8 @1 }".toList := rfl
  have hk : Killed C37_std (oneFile "struct  A { x : u8 @1 }".toList) [[['a', '.', 'm', 'a', 'b', 'o']]]
      ((oneFile "struct  A { x : u8 @1 }".toList).set 0 ([] : Text).utf8Encode) :=
    .writing rfl h0 (by rw [ta]; decide) ⟨0, by simp⟩
  rcases h _ _ _ (List.pairwise_singleton _ _) hk 0 _ h0 with e | e
  · exact absurd (holds_inj e set_holds) (by decide)
  · rw [ta] at e
    exact absurd (holds_inj e set_holds) (by decide)

/-- A project whose selection succeeds: a pattern, a walk with a schema, another file and a nested schema. -/
def okHost : Host where
  pattern := fun s => if s = "**" then some fun _ => true else none
  walk := fun _ => [some [], some ["a.mabo".toList], some ["b.txt".toList], some [['x']], some [['x'], "c.d.mabo".toList],
    some [".mabo".toList]]
  glob := fun s => if s = "*" then some [some ["a.mabo".toList], some ["b.txt".toList]] else none
  project := fun _ => some ["**", "**"]

theorem C70_example : load okHost [['p']] = some [[['p'], "a.mabo".toList], [['p'], ['x'], "c.d.mabo".toList]] ∧
    projectOrFiles okHost [['p']] ["*"] = some [["a.mabo".toList]] ∧ projectOrFiles okHost [['p']] ["*", "["] = none ∧
    stem "c.d.mabo".toList = "c.d".toList := by decide +kernel

end Mabo.Props
