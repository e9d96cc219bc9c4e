import Verif.Compiler.ResolveLabelsMain
import Verif.Props.Resolve
import Verif.Props.Tokens
/-!
C77: where the errors of the resolver point to. The specification is in `Spec/ResolveLabels.lean`.
-/
namespace Mabo.Props
open Mabo.Spec.Labels Mabo.Labels

theorem C77_known {std : Parse.Std} {files : List (String × File)} (h : Ready std files) : Resolve.Known (schemasOf files) := by
  refine Validated.known ⟨?_, fun v hv => ?_⟩
  · rw [schemasOf, List.map_map]; exact h.names
  · obtain ⟨w, hw, rfl⟩ := List.mem_map.1 hv
    exact h.valid w hw

/-- C77 (partial: with two kinds of error a label is misplaced, see the theorems `C77_fails_…` below). The error is shown with the
source of one of the files. It is about an import of this file or about a type that a field in it mentions, and what it says is
true (as in C72). Its labels are exactly on the names in question: "used here" on the missing schema or module or the element of
the import, or on the name of the mentioned type; "declared here" on the name of the found declaration — for declarations in other
files as a related report with the source of that file. -/
theorem C77_labels_partial (std : Parse.Std) (files : List (String × File)) (hr : Ready std files) :
    ∃ places : String → List Spec.Doc.Place, (∀ v ∈ files, Tokenized std v.2 (places v.1)) ∧
      ∀ (style : Style) (order : Order) (e : Error), schemas order files = .err e → ∃ stem f, (stem, f) ∈ files ∧
        (report style e).source = ⟨f.path.getD "<unknown>", f.source⟩ ∧
        Shows std files places stem f e.cause.erase (report style e).labels
          ((report style e).related.map fun r => (r.source, r.labels)) := by
  refine ⟨placesFor files, fun v hv => ?_, fun style order e h => ?_⟩
  · rw [placesFor_mem hr.names (stem := v.1) (f := v.2) hv]
    exact Lsp.placed_schema (hr.parsed v hv)
  · obtain ⟨m, hm, h1, h2⟩ := schemasFrom_err h
    obtain ⟨v, hv, rfl⟩ := List.mem_map.1 hm
    refine ⟨v.1, v.2, hv, h1, ?_⟩
    have := resolveOne_shows hr (C77_known hr) order (stem := v.1) (f := v.2) hv h2
    simp only [report, labels_style, related_style]
    exact this

/-- C77. The errors are those of C32 and C72: with the spans taken away, the result is that of the resolver there. -/
theorem C77_same_errors (order : Order) (files : List (String × File)) :
    (schemas order files).mapErr (fun e => e.cause.erase) = Resolve.resolveSchemas order.toOrder (schemasOf files) :=
  schemas_erase order files

/-- C77. All ranges of the labels of the error itself are in the text that is shown, on characters' boundaries, except "declared
here" of an import's element. -/
theorem C77_used_in_text (std : Parse.Std) (files : List (String × File)) (hr : Ready std files) (style : Style) (order : Order)
    (e : Error) (h : schemas order files = .err e) (l : Label) (hl : l ∈ (report style e).labels)
    (hk : l.1 = "used here" ∨ ∀ k, e.cause.erase ≠ .imp (.invalidKind k)) :
    ∃ a w b, e.source.source = a ++ w ++ b ∧ l.2 = (Lsp.bytes a, Lsp.bytes (a ++ w)) := by
  obtain ⟨places, _, hp⟩ := C77_labels_partial std files hr
  obtain ⟨stem, f, hf, hs, hsh⟩ := hp style order e h
  have hsrc : e.source.source = f.source := by
    have : e.source = ⟨f.path.getD "<unknown>", f.source⟩ := hs
    rw [this]
  have useIn : ∀ {n name l}, UsedLabel places stem f n name l → ∃ a w b, e.source.source = a ++ w ++ b ∧
      l.2 = (Lsp.bytes a, Lsp.bytes (a ++ w)) := by
    rintro n name l ⟨r, ⟨p, rest, _, h1, _, h2⟩, rfl⟩
    exact ⟨p.before, p.here, rest, by rw [hsrc, h1], h2⟩
  have declIn : ∀ {mods name l}, DeclaredLabel std places stem f mods name l → ∃ a w b, e.source.source = a ++ w ++ b ∧
      l.2 = (Lsp.bytes a, Lsp.bytes (a ++ w)) := by
    rintro mods name l ⟨n, r, _, ⟨p, rest, _, h1, _, h2⟩, rfl⟩
    exact ⟨p.before, p.here, rest, by rw [hsrc, h1], h2⟩
  generalize hc : e.cause.erase = c at hsh hk
  generalize hls : (report style e).labels = ls at hsh hl
  generalize (report style e).related.map (fun r => (r.source, r.labels)) = rs at hsh
  cases hsh with
  | imp _ _ hi =>
    cases hi with
    | schema hu => rw [List.mem_singleton] at hl; subst hl; exact useIn hu
    | module hu => rw [List.mem_singleton] at hl; subst hl; exact useIn hu
    | definition hu => rw [List.mem_singleton] at hl; subst hl; exact useIn hu
    | kind _ _ hd hu =>
      simp only [List.mem_cons, List.not_mem_nil, or_false] at hl
      rcases hl with rfl | rfl
      · rcases hk with hk | hk
        · obtain ⟨_, _, _, _, rfl⟩ := hd
          simp at hk
        · exact absurd rfl (hk _)
      · exact useIn hu
  | ref _ _ _ _ hi =>
    cases hi with
    | module hu => rw [List.mem_singleton] at hl; subst hl; exact useIn hu
    | definition hu => rw [List.mem_singleton] at hl; subst hl; exact useIn hu
    | noImport hu => rw [List.mem_singleton] at hl; subst hl; exact useIn hu
    | remoteDefinition hu => rw [List.mem_singleton] at hl; subst hl; exact useIn hu
    | remoteCount _ _ _ hu => rw [List.mem_singleton] at hl; subst hl; exact useIn hu
    | remoteKind _ _ _ hu => rw [List.mem_singleton] at hl; subst hl; exact useIn hu
    | count hd hu =>
      simp only [List.mem_cons, List.not_mem_nil, or_false] at hl
      rcases hl with rfl | rfl
      · exact declIn hd
      · exact useIn hu
    | kind hd hu =>
      simp only [List.mem_cons, List.not_mem_nil, or_false] at hl
      rcases hl with rfl | rfl
      · exact declIn hd
      · exact useIn hu

/-! ### Files -/

/-- The file with this name and text. -/
def C77_file (v : String × String) : Option (String × File) :=
  (Spanned.parseSchema C39_std v.2.toList).map fun s => (v.1, ⟨some v.1, v.2.toList, s⟩)

/-- The files with these names and texts. -/
def C77_load : List (String × String) → Option (List (String × File))
  | [] => some []
  | v :: rest => (C77_file v).bind fun f => (C77_load rest).map fun fs => f :: fs

theorem C77_load_parsed : ∀ {texts : List (String × String)} {files : List (String × File)}, C77_load texts = some files →
    ∀ v ∈ files, Spanned.parseSchema C39_std v.2.source = some v.2.schema
  | [], files, h => by
    rw [C77_load, Option.some.injEq] at h
    subst h
    exact fun _ h => nomatch h
  | v :: rest, files, h => by
    rw [C77_load, Option.bind_eq_some_iff] at h
    obtain ⟨f, h1, h⟩ := h
    obtain ⟨fs, h2, h3⟩ := Option.map_eq_some_iff.1 h
    rw [C77_file, Option.map_eq_some_iff] at h1
    obtain ⟨s, h1, h4⟩ := h1
    subst h3 h4
    intro v hv
    rcases List.mem_cons.1 hv with rfl | hv
    · exact h1
    · exact C77_load_parsed h2 v hv

/-- The hash maps yield their entries as they were inserted. -/
def C77_order : Order := ⟨id, fun _ => .refl _, fun _ _ => rfl⟩

/-- The files are valid, with different names, and the resolver reports this error. -/
def C77_check (texts : List (String × String)) (e : Error) : Bool :=
  match C77_load texts with
  | none => false
  | some files => decide (files.map (·.1)).Nodup &&
      files.all (fun v => (Parse.parseSchema C39_std v.2.source).any fun s => decide (Compiler.validateSchema false s = .ok)) &&
      decide (schemas C77_order files = .err e)

theorem C77_of_check {texts : List (String × String)} {e : Error} (h : C77_check texts e = true) :
    ∃ files, C77_load texts = some files ∧ Ready C39_std files ∧ schemas C77_order files = .err e := by
  unfold C77_check at h
  cases hl : C77_load texts with
  | none => rw [hl] at h; cases h
  | some files =>
    rw [hl] at h
    simp only [Bool.and_eq_true, decide_eq_true_eq, List.all_eq_true] at h
    refine ⟨files, rfl, ⟨h.1.1, C77_load_parsed hl, fun v hv => ⟨false, ?_⟩⟩, h.2⟩
    have := h.1.2 v hv
    rw [← Spanned.erase_parseSchema, C77_load_parsed hl v hv] at this
    exact of_decide_eq_true this

/-! ### Where labels are misplaced -/

/-- A file that imports an alias. -/
def C77_alias : List (String × String) := [("a", "use b::T;\n"), ("b", "/// A comment.\nstruct S(u8)\ntype T = u8;\n")]

/-- C77 fails (error.rs:166-180, mod.rs:206-217): the report shows the source of the importing file, but "declared here" is a
range of the imported file, which need not even be inside the text that is shown. -/
theorem C77_fails_for_imported_kinds : ∃ files e, C77_load C77_alias = some files ∧ Ready C39_std files ∧
    schemas C77_order files = .err e ∧ (report ⟨id, id⟩ e).source = ⟨"a", "use b::T;\n".toList⟩ ∧
    (report ⟨id, id⟩ e).labels = [("declared here", (33, 34)), ("used here", (7, 8))] ∧
    (report ⟨id, id⟩ e).related = [] ∧ Lsp.bytes "use b::T;\n".toList = 10 := by
  obtain ⟨files, h1, h2, h3⟩ := C77_of_check (texts := C77_alias)
    (e := ⟨⟨"a", "use b::T;\n".toList⟩, .imp (.invalidKind "alias" (33, 34) (7, 8))⟩) (by decide +kernel)
  exact ⟨files, _, h1, h2, h3, rfl, rfl, rfl, by decide⟩

/-- A file that mentions a type of a module that does not exist. -/
def C77_module : List (String × String) := [("a", "mod x {}\nstruct S(x::y::T)\n")]

/-- C77 fails (mod.rs:137-144): the missing module is `y`, but "used here" is on `T`. For imports it is on the module. -/
theorem C77_fails_for_missing_modules : ∃ files e, C77_load C77_module = some files ∧ Ready C39_std files ∧
    schemas C77_order files = .err e ∧ (report ⟨id, id⟩ e).messages =
      ["type resolution failed", "failed resolving type in local modules", "module y not found"] ∧
    (report ⟨id, id⟩ e).help = some "the resolution stopped at module path a::x" ∧
    (report ⟨id, id⟩ e).labels = [("used here", (24, 25))] ∧
    "mod x {}\nstruct S(x::y::T)\n".toList = "mod x {}\nstruct S(x::y::".toList ++ "T".toList ++ ")\n".toList ∧
    Lsp.bytes "mod x {}\nstruct S(x::y::".toList = 24 := by
  obtain ⟨files, h1, h2, h3⟩ := C77_of_check (texts := C77_module)
    (e := ⟨⟨"a", "mod x {}\nstruct S(x::y::T)\n".toList⟩, .loc (.missingModule "y" ["a", "x"] (24, 25))⟩) (by decide +kernel)
  exact ⟨files, _, h1, h2, h3, by decide +kernel, by decide +kernel, rfl, by decide, by decide⟩

/-! ### Examples: `C77_labels_partial` applies to these files, and this is what is reported -/

/-- In a report, what is shown to the user. -/
def C77_shown (texts : List (String × String)) (messages : List String) (labels : List Label) (related : List Related) : Prop :=
  ∃ files e, C77_load texts = some files ∧ Ready C39_std files ∧ schemas C77_order files = .err e ∧
    (report ⟨id, id⟩ e).messages.drop 2 = messages ∧ (report ⟨id, id⟩ e).labels = labels ∧ (report ⟨id, id⟩ e).related = related

theorem C77_shown_of {texts : List (String × String)} {messages : List String} {labels : List Label} {related : List Related}
    (e : Error) (h : C77_check texts e = true)
    (h' : decide ((report ⟨id, id⟩ e).messages.drop 2 = messages ∧ (report ⟨id, id⟩ e).labels = labels ∧
      (report ⟨id, id⟩ e).related = related) = true) : C77_shown texts messages labels related := by
  obtain ⟨files, h1, h2, h3⟩ := C77_of_check h
  exact ⟨files, e, h1, h2, h3, of_decide_eq_true h'⟩

/-- The wrong number of type arguments, in the same file, behind a letter of two bytes. -/
example : C77_shown [("a", "/// é\nstruct P<T>(T)\nstruct S(vec<P>)\n")]
    ["the definition has 1 generics but the use side has 0"]
    [("declared here", (14, 15)), ("used here", (35, 36))] [] :=
  C77_shown_of ⟨⟨"a", "/// é\nstruct P<T>(T)\nstruct S(vec<P>)\n".toList⟩, .loc (.genericsCount 1 0 (14, 15) (35, 36))⟩
    (by decide +kernel) (by decide +kernel)

/-- The wrong number of type arguments of an imported type: a related report with the source of the other file. -/
example : C77_shown [("a", "use b::P;\nstruct S(P<u8>)\n"), ("b", "struct P(u8)\n")]
    ["the use side has 1 generic(s), mismatching with the declaration"] [("used here", (19, 20))]
    [⟨"the declaration has 0 generic(s), mismatching with the use side", ⟨"b", "struct P(u8)\n".toList⟩,
      [("declared here", (7, 8))]⟩] :=
  C77_shown_of ⟨⟨"a", "use b::P;\nstruct S(P<u8>)\n".toList⟩,
      .remote (.genericsCount 1 (19, 20) 0 ⟨"b", "struct P(u8)\n".toList⟩ (7, 8))⟩
    (by decide +kernel) (by decide +kernel)

/-- A missing module in an import. -/
example : C77_shown [("a", "use b::c::P;\n"), ("b", "struct P(u8)\n")] ["module c not found"] [("used here", (7, 8))] [] :=
  C77_shown_of ⟨⟨"a", "use b::c::P;\n".toList⟩, .imp (.missingModule "c" ["b"] (7, 8))⟩
    (by decide +kernel) (by decide +kernel)

/-- A missing import, in a module. -/
example : C77_shown [("a", "use b::P;\nmod m {\n  struct S(option<(u8, Q)>)\n}\n"), ("b", "struct P(u8)\n")]
    ["missing import for type Q"] [("used here", (41, 42))] [] :=
  C77_shown_of ⟨⟨"a", "use b::P;\nmod m {\n  struct S(option<(u8, Q)>)\n}\n".toList⟩, .remote (.missingImport [] "Q" (41, 42))⟩
    (by decide +kernel) (by decide +kernel)

end Mabo.Props
