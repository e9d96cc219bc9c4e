import Verif.Doc.HtmlRead
/-!
The pages of the documentation are read as the documents in `Spec/DocHtml.lean`: the pages.
-/
namespace Mabo.Doc
open Mabo.Spec.Html
open Mabo.Simplify
open Mabo.Parse (Text Std printNat)
open Mabo.Spec

theorem flats_cons (x : Node) (xs : List Node) : flats (x :: xs) = flat x ++ flats xs := rfl
theorem flats_nil : flats [] = [] := rfl

theorem flat_el (name : String) (attrs : List (String × Text)) (kids : List Node) (h : isVoid name.toList = false) :
    flat (el name attrs kids) =
      .start name.toList (attrs.map fun a => (a.1.toList, a.2)) :: (flats kids ++ [.stop name.toList]) := by
  simp only [el, flat, h]
  rfl

theorem flat_cls (name c : String) (kids : List Node) (h : isVoid name.toList = false) :
    flat (DocHtml.cls name c kids) =
      .start name.toList [("class".toList, c.toList)] :: (flats kids ++ [.stop name.toList]) :=
  flat_el name _ kids h

theorem flat_plain (name : String) (kids : List Node) (h : isVoid name.toList = false) :
    flat (DocHtml.plain name kids) = .start name.toList [] :: (flats kids ++ [.stop name.toList]) :=
  flat_el name _ kids h

theorem flats_say (s : String) : flats (say s) = s.toList.map .chr := flats_chr _

theorem sound_el (name : String) (attrs : List (String × Text)) (kids : List Node) (h : isVoid name.toList = false ∨ kids = []) :
    Sound (el name attrs kids) ↔ Sounds kids := by
  simp only [el, Sound]
  refine ⟨fun x => x.2, fun x => ⟨fun hv => ?_, x⟩⟩
  rcases h with h | h
  · rw [h] at hv; cases hv
  · exact h

theorem sound_cls (name c : String) (kids : List Node) (h : isVoid name.toList = false) :
    Sound (DocHtml.cls name c kids) ↔ Sounds kids := sound_el name _ kids (.inl h)

theorem sound_plain (name : String) (kids : List Node) (h : isVoid name.toList = false) :
    Sound (DocHtml.plain name kids) ↔ Sounds kids := sound_el name _ kids (.inl h)

theorem sounds_cons (x : Node) (xs : List Node) : Sounds (x :: xs) ↔ Sound x ∧ Sounds xs := Iff.rfl
theorem sounds_nil : Sounds [] ↔ True := Iff.rfl
theorem sounds_text (t : Text) : Sounds (text t) ↔ True := iff_true_intro (sounds_chr _)
theorem sounds_exact (t : Text) : Sounds (exact t) ↔ True := iff_true_intro (sounds_chr _)
theorem sounds_say (s : String) : Sounds (say s) ↔ True := iff_true_intro (sounds_chr _)

theorem void_div : isVoid "div".toList = false := by decide
theorem void_h2 : isVoid "h2".toList = false := by decide
theorem void_h3 : isVoid "h3".toList = false := by decide
theorem void_h4 : isVoid "h4".toList = false := by decide
theorem void_span : isVoid "span".toList = false := by decide
theorem void_pre : isVoid "pre".toList = false := by decide
theorem void_a : isVoid "a".toList = false := by decide
theorem void_tr : isVoid "tr".toList = false := by decide
theorem void_td : isVoid "td".toList = false := by decide
theorem void_table : isVoid "table".toList = false := by decide
theorem void_ul : isVoid "ul".toList = false := by decide
theorem void_li : isVoid "li".toList = false := by decide
theorem void_code : isVoid "code".toList = false := by decide
theorem void_p : isVoid "p".toList = false := by decide
theorem void_html : isVoid "html".toList = false := by decide
theorem void_head : isVoid "head".toList = false := by decide
theorem void_body : isVoid "body".toList = false := by decide
theorem void_nav : isVoid "nav".toList = false := by decide
theorem void_main : isVoid "main".toList = false := by decide
theorem void_title : isVoid "title".toList = false := by decide

/-- Brings the events of documents into normal form. -/
macro "events" : tactic => `(tactic| simp only [flats_cons, flats_nil, flats_append, flats_say, flat_cls, flat_plain, flat_el, void_div, void_h2, void_h3, void_h4,
  void_span, void_pre, void_a, void_tr, void_td, void_table, void_ul, void_li, void_code, void_p, void_html, void_head, void_body,
  void_nav, void_main, void_title, List.append_assoc, List.cons_append, List.nil_append, List.append_nil, List.map_cons, List.map_nil])

/-- Elements without content have none. -/
macro "sounds" : tactic => `(tactic| simp only [sounds_cons, sounds_nil, sounds_append, sounds_text, sounds_exact, sounds_say, sound_cls, sound_plain, void_div,
  void_h2, void_h3, void_h4,
  void_span, void_pre, void_a, void_tr, void_td, void_table, void_ul, void_li, void_code, void_p, void_html, void_head, void_body,
  void_nav, void_main, void_title, and_true, true_and])

/-- The Markdown is converted to well-formed HTML which begins with no blank. -/
structure Converts (md : Markdown) (m : DocHtml.Meaning) : Prop where
  block : ∀ t, readHtml (md.block t) = some (m.block t)
  sizes : ∀ n t, readHtml (md.sizes n t) = some (m.sizes n t)
  blockTrimmed : ∀ t c r, md.block t = c :: r → c ≠ ' ' ∧ c ≠ '\n'
  sizesTrimmed : ∀ n t c r, md.sizes n t = c :: r → c ≠ ' ' ∧ c ≠ '\n'

variable {md : Markdown} {m : DocHtml.Meaning}

theorem reads_block (h : Converts md m) (t : Text) : Reads (md.block t) (flats (m.block t)) :=
  fun f => (scan_fragment _ _ (h.block t) (h.blockTrimmed t) f).1
theorem sounds_block (h : Converts md m) (t : Text) : Sounds (m.block t) :=
  (scan_fragment _ _ (h.block t) (h.blockTrimmed t) false).2
theorem reads_sizes (h : Converts md m) (n : Nat) (t : Text) : Reads (md.sizes n t) (flats (m.sizes n t)) :=
  fun f => (scan_fragment _ _ (h.sizes n t) (h.sizesTrimmed n t) f).1
theorem sounds_sizes (h : Converts md m) (n : Nat) (t : Text) : Sounds (m.sizes n t) :=
  (scan_fragment _ _ (h.sizes n t) (h.sizesTrimmed n t) false).2

/-! ### Parts of pages -/

theorem reads_trail (len : Nat) (ps : List String) : ∀ i, Reads (trailHtml len i ps) (flats (DocHtml.trail len i ps)) := by
  induction ps with
  | nil => exact fun i => Reads.nil
  | cons p ps ih =>
    intro i
    have h3 : ∀ f, Scans (D f) (lit "</a>::") (D false) ([.stop "a".toList] ++ "::".toList.map .chr) := by
      intro f; cases f <;> decide +kernel
    refine Reads.of (fun f => Run.lit (scans_trail (upwards (len - i - 1))) (Run.hole (t := p.toList) (fun f2 =>
      Run.lit h3 (ih (i + 1) false)))) ?_ ?_
    · simp only [trailHtml, List.append_assoc]
    · simp only [DocHtml.trail]
      events

theorem sounds_trail (len : Nat) (ps : List String) : ∀ i, Sounds (DocHtml.trail len i ps) := by
  induction ps with
  | nil => exact fun i => trivial
  | cons p ps ih =>
    intro i
    simp only [DocHtml.trail]
    sounds
    exact ⟨(sound_el _ _ _ (.inl void_a)).2 (sounds_chr _), ih _⟩

theorem reads_heading (k : Kind) (trail : Text) (links : List Node) (name : String) (h : Reads trail (flats links)) :
    Reads (headingHtml k trail name)
      (.start "div".toList [("class".toList, "section".toList)] :: flat (DocHtml.heading k.title k.cls links name)) := by
  refine Reads.of (fun f => Run.lit (scans_heading k) (Run.reads h (fun f2 => Run.lit (scans_name k)
    (Run.hole (t := name.toList) (fun f3 => Run.last headingHtml_4))))) ?_ ?_
  · simp only [headingHtml, List.append_assoc]
  · simp only [DocHtml.heading]
    events

theorem sound_heading (k c : String) (links : List Node) (name : String) (h : Sounds links) :
    Sound (DocHtml.heading k c links name) := by
  simp only [DocHtml.heading]
  sounds
  exact h

theorem reads_definition (t : Text) : Reads (definitionHtml t) (flat (DocHtml.definition t)) := by
  intro f
  have h1 : Scans (D f) (lit "\n  <pre class=\"item-definition my-2\">") ⟨.data, false, 1⟩
      [.start "pre".toList [("class".toList, "item-definition my-2".toList)]] := by cases f <;> decide +kernel
  obtain ⟨f2, h2⟩ := scan_escape_pre t false
  have h3 : ∀ f, Scans ⟨.data, f, 1⟩ (lit "</pre>") (D false) [.stop "pre".toList] := by intro f; cases f <;> decide +kernel
  refine ⟨false, ?_⟩
  have := (h1.append h2).append (h3 f2)
  simp only [DocHtml.definition]
  rw [flat_cls _ _ _ void_pre, exact, flats_chr]
  simpa [definitionHtml] using this

theorem reads_comment (h : Converts md m) (c : List String) :
    Reads (commentHtml md c) (flat (DocHtml.comment m c) ++ [.stop "div".toList]) := by
  refine Reads.of (fun f => Run.lit commentHtml_0 (Run.reads (reads_block h (mergeComments c)) (fun f2 => Run.last commentHtml_1))) ?_ ?_
  · simp only [commentHtml, List.append_assoc]
  · simp only [DocHtml.comment]
    events

theorem sound_comment (h : Converts md m) (c : List String) : Sound (DocHtml.comment m c) := by
  simp only [DocHtml.comment]
  sounds
  exact sounds_block h _

/-! ### Tables -/

theorem isWhite_iff (c : Char) : isWhite c = true ↔ c.toNat ∈ [9, 10, 11, 12, 13, 0x20, 0x85, 0xA0, 0x1680, 0x2000, 0x2001, 0x2002,
    0x2003, 0x2004, 0x2005, 0x2006, 0x2007, 0x2008, 0x2009, 0x200A, 0x2028, 0x2029, 0x202F, 0x205F, 0x3000] := by
  simp only [isWhite, Bool.or_eq_true, Bool.and_eq_true, decide_eq_true_eq, beq_iff_eq, List.mem_cons, List.not_mem_nil, or_false]
  omega

theorem firstComment_eq (c : List String) : firstComment c = mergeComments (DocHtml.summary c) := by
  unfold firstComment
  congr 1
  induction c with
  | nil => rfl
  | cons l ls ih =>
    simp only [List.takeWhile, DocHtml.summary]
    by_cases h : l.toList.all isWhite = true
    · rw [if_neg]
      · simp [h]
      · rintro ⟨c, hc, hn⟩
        exact hn ((isWhite_iff c).1 (List.all_eq_true.1 h c hc))
    · rw [if_pos]
      · simp only [h]
        rw [← ih]
        rfl
      · refine Classical.byContradiction fun hc => h (List.all_eq_true.2 fun c hm => ?_)
        exact Classical.byContradiction fun hw => hc ⟨c, hm, fun x => hw ((isWhite_iff c).2 x)⟩

theorem reads_row (h : Converts md m) (k : Kind) (name : String) (c : List String) (href : Text)
    (hh : href = k.before.toList ++ name.toList ++ k.tail) :
    Reads (rowHtml md k name c) (flat (DocHtml.row m k.cls href name c)) := by
  refine Reads.of (fun f => Run.lit (scans_row k name.toList) (Run.hole (t := name.toList) (fun f2 => Run.lit rowHtml_2
    (Run.reads (reads_block h (firstComment c)) (fun f3 => Run.last rowHtml_3))))) ?_ ?_
  · simp only [rowHtml, List.append_assoc]
  · simp only [DocHtml.row]
    subst hh
    have e : ("text-lg " ++ k.cls).toList = "text-lg ".toList ++ k.cls.toList := by simp
    rw [e]
    events
    rw [firstComment_eq]

theorem sound_row (h : Converts md m) (k : String) (name : String) (c : List String) (href : Text) :
    Sound (DocHtml.row m k href name c) := by
  simp only [DocHtml.row]
  sounds
  exact ⟨(sound_el _ _ _ (.inl void_a)).2 (sounds_chr _), sounds_block h _⟩

theorem reads_moduleRows (h : Converts md m) (ds : List Definition) :
    Reads (moduleRows md ds) (flats (ds.flatMap (DocHtml.moduleRow m))) ∧ Sounds (ds.flatMap (DocHtml.moduleRow m)) := by
  induction ds with
  | nil => exact ⟨Reads.nil, trivial⟩
  | cons d ds ih =>
    cases d <;> first
      | exact ih
      | (rename_i c n x
         exact ⟨(reads_row h .module n c _ rfl).append ih.1, sound_row h _ _ _ _, ih.2⟩)

theorem reads_structRows (h : Converts md m) (ds : List Definition) :
    Reads (structRows md ds) (flats (ds.flatMap (DocHtml.structRow m))) ∧ Sounds (ds.flatMap (DocHtml.structRow m)) := by
  induction ds with
  | nil => exact ⟨Reads.nil, trivial⟩
  | cons d ds ih =>
    cases d <;> first
      | exact ih
      | (rename_i s
         exact ⟨(reads_row h .struct s.name s.comment _ rfl).append ih.1, sound_row h _ _ _ _, ih.2⟩)

theorem reads_enumRows (h : Converts md m) (ds : List Definition) :
    Reads (enumRows md ds) (flats (ds.flatMap (DocHtml.enumRow m))) ∧ Sounds (ds.flatMap (DocHtml.enumRow m)) := by
  induction ds with
  | nil => exact ⟨Reads.nil, trivial⟩
  | cons d ds ih =>
    cases d <;> first
      | exact ih
      | (rename_i s
         exact ⟨(reads_row h .enum s.name s.comment _ rfl).append ih.1, sound_row h _ _ _ _, ih.2⟩)

theorem reads_aliasRows (h : Converts md m) (ds : List Definition) :
    Reads (aliasRows md ds) (flats (ds.flatMap (DocHtml.aliasRow m))) ∧ Sounds (ds.flatMap (DocHtml.aliasRow m)) := by
  induction ds with
  | nil => exact ⟨Reads.nil, trivial⟩
  | cons d ds ih =>
    cases d <;> first
      | exact ih
      | (rename_i s
         exact ⟨(reads_row h .alias s.name s.comment _ rfl).append ih.1, sound_row h _ _ _ _, ih.2⟩)

theorem reads_constRows (h : Converts md m) (ds : List Definition) :
    Reads (constRows md ds) (flats (ds.flatMap (DocHtml.constRow m))) ∧ Sounds (ds.flatMap (DocHtml.constRow m)) := by
  induction ds with
  | nil => exact ⟨Reads.nil, trivial⟩
  | cons d ds ih =>
    cases d <;> first
      | exact ih
      | (rename_i s
         exact ⟨(reads_row h .const s.name s.comment _ rfl).append ih.1, sound_row h _ _ _ _, ih.2⟩)

theorem reads_table (title : String) (ht : title ∈ ["Modules", "Structs", "Enums", "Aliases", "Constants"]) {rows : Text}
    {ns : List Node} (h : Reads rows (flats ns)) : Reads (tableHtml title rows) (flat (DocHtml.table title ns)) := by
  refine Reads.of (fun f => Run.lit (scans_table title ht) (Run.reads h (fun f2 => Run.last tableHtml_2))) ?_ ?_
  · simp only [tableHtml, List.append_assoc]
  · simp only [DocHtml.table, DocHtml.part]
    events

theorem sound_table (title : String) {ns : List Node} (h : Sounds ns) : Sound (DocHtml.table title ns) := by
  simp only [DocHtml.table, DocHtml.part]
  sounds
  exact h

theorem reads_tables (h : Converts md m) (ds : List Definition) :
    Reads (tablesHtml md ds) (flats (DocHtml.tables m ds)) := by
  have h1 := reads_table "Modules" (by simp) (reads_moduleRows h ds).1
  have h2 := reads_table "Structs" (by simp) (reads_structRows h ds).1
  have h3 := reads_table "Enums" (by simp) (reads_enumRows h ds).1
  have h4 := reads_table "Aliases" (by simp) (reads_aliasRows h ds).1
  have h5 := reads_table "Constants" (by simp) (reads_constRows h ds).1
  refine Reads.of ((((h1.append h2).append h3).append h4).append h5) rfl ?_
  simp only [DocHtml.tables]
  events

theorem sounds_tables (h : Converts md m) (ds : List Definition) : Sounds (DocHtml.tables m ds) :=
  ⟨sound_table _ (reads_moduleRows h ds).2, sound_table _ (reads_structRows h ds).2, sound_table _ (reads_enumRows h ds).2,
   sound_table _ (reads_aliasRows h ds).2, sound_table _ (reads_constRows h ds).2, trivial⟩

/-! ### Whole pages -/

theorem readHtml_of {t : Text} {ns : List Node} (h : Reads t (flats ns)) (hs : Sounds ns) : readHtml t = some ns := by
  obtain ⟨f', h⟩ := h false
  unfold readHtml
  have e : Reader.init.scan t = some (D f', flats ns) := h
  rw [e]
  exact build_flats_nil ns hs

theorem reads_page (path : List String) (title : String) (content : Text) (ns : List Node) (h : Reads content (flats ns))
    (hs : Sounds ns) : readHtml (baseHtml path title content) = some (DocHtml.page path title ns) := by
  refine readHtml_of (Reads.of (fun f => Run.lit (scans_base (upwards path.length)) (Run.lit baseHtml_2
    (Run.hole (t := title.toList ++ " - Mabo".toList) (fun f2 => Run.lit baseHtml_3 (Run.reads h (fun f3 =>
      Run.last baseHtml_4)))))) ?_ ?_) ?_
  · rw [escape_append]
    simp only [baseHtml, List.append_assoc]
    have e1 : escape " - Mabo".toList = lit " - Mabo" := by decide
    have e2 : lit " - Mabo</title>\n  </head>\n  <body>\n    <nav>\n    </nav>\n    <main>" =
        lit " - Mabo" ++ lit "</title>\n  </head>\n  <body>\n    <nav>\n    </nav>\n    <main>" := by decide
    rw [e1, e2, List.append_assoc]
  · simp only [DocHtml.page]
    have v1 : ∀ a, flat (el "meta" a []) = [.start "meta".toList (a.map fun a => (a.1.toList, a.2))] := fun a => by
      have : isVoid "meta".toList = true := by decide
      simp only [el, flat, this]; rfl
    have v2 : ∀ a, flat (el "link" a []) = [.start "link".toList (a.map fun a => (a.1.toList, a.2))] := fun a => by
      have : isVoid "link".toList = true := by decide
      simp only [el, flat, this]; rfl
    have v3 : ∀ t, flat (.decl t) = [.decl t] := fun _ => rfl
    events
    simp only [v1, v2, v3]
    events
  · simp only [DocHtml.page]
    sounds
    refine ⟨trivial, (sound_el _ _ _ (.inl void_html)).2 ?_⟩
    sounds
    exact ⟨⟨(sound_el _ _ _ (.inr rfl)).2 trivial, (sound_el _ _ _ (.inr rfl)).2 trivial, (sound_el _ _ _ (.inr rfl)).2 trivial⟩, hs⟩

theorem read_index (h : Converts md m) (path c : List String) (name : String) (ds : List Definition) :
    readHtml (indexHtml md path c name ds) = some (DocHtml.schemaPage m path c name ds) := by
  refine reads_page path name _ _ (Reads.of (fun f => Run.lit indexHtml_0 (Run.hole (t := name.toList) (fun f2 =>
    Run.lit indexHtml_1 (Run.reads (reads_comment h c) (reads_tables h ds) : Run _ _ _)))) ?_ ?_) ?_
  · simp only [List.append_assoc]
  · simp only [DocHtml.part]
    events
  · simp only [DocHtml.part]
    sounds
    exact ⟨sound_comment h c, sounds_tables h ds⟩

theorem read_module (h : Converts md m) (path c : List String) (name : String) (ds : List Definition) :
    readHtml (moduleHtml md path c name ds) = some (DocHtml.modulePage m path c name ds) := by
  refine reads_page path name _ _ (Reads.of (fun f => Run.reads (reads_heading .module _ _ name (reads_trail path.length path.dropLast 0))
    ((reads_comment h c).append (reads_tables h ds))) ?_ ?_) ?_
  · simp only [List.append_assoc]
    rw [List.dropLast_eq_take]
  · simp only [DocHtml.part]
    events
    rfl
  · simp only [DocHtml.part]
    sounds
    exact ⟨⟨sound_heading _ _ _ _ (sounds_trail _ _ _), sound_comment h c⟩, sounds_tables h ds⟩

theorem scans_newline (f : Bool) : Scans (D f) (lit "\n") (D true) [] := by cases f <;> decide

theorem read_alias (h : Converts md m) (path : List String) (a : TypeAlias) :
    readHtml (aliasHtml md path a) = some (DocHtml.aliasPage m path a) := by
  refine reads_page path a.name _ _ (Reads.of (fun f => Run.reads (reads_heading .alias _ _ a.name (reads_trail path.length path 0))
    ((reads_definition (docAlias a)).append ((reads_comment h a.comment).append (fun f2 => Run.last scans_newline)))) ?_ ?_) ?_
  · simp only [List.append_assoc]
  · simp only [DocHtml.part]
    events
    rfl
  · simp only [DocHtml.part]
    sounds
    exact ⟨sound_heading _ _ _ _ (sounds_trail _ _ _), (sound_cls _ _ _ void_pre).2 (sounds_chr _), sound_comment h _⟩

theorem read_const (h : Converts md m) (std : Std) (path : List String) (c : Const) :
    readHtml (constHtml std md path c) = some (DocHtml.constPage std m path c) := by
  refine reads_page path c.name _ _ (Reads.of (fun f => Run.reads (reads_heading .const _ _ c.name (reads_trail path.length path 0))
    ((reads_definition (docConst std c)).append ((reads_comment h c.comment).append (fun f2 => Run.last scans_newline)))) ?_ ?_) ?_
  · simp only [List.append_assoc]
  · simp only [DocHtml.part]
    events
    rfl
  · simp only [DocHtml.part]
    sounds
    exact ⟨sound_heading _ _ _ _ (sounds_trail _ _ _), (sound_cls _ _ _ void_pre).2 (sounds_chr _), sound_comment h _⟩

/-! ### Structs and enums -/

theorem reads_structSize (h : Converts md m) (t : Ty) :
    Reads (structSizeHtml md (sizeText t)) (flats (DocHtml.fieldSize m 10 t)) ∧ Sounds (DocHtml.fieldSize m 10 t) := by
  unfold sizeText DocHtml.fieldSize
  cases Lsp.sizeTree t with
  | none => exact ⟨Reads.nil, trivial⟩
  | some x =>
    simp only [Option.map_some]
    refine ⟨Reads.of (fun f => Run.lit structSizeHtml_0 (Run.reads (reads_sizes h 10 (Lsp.printSize 0 x).toList) (fun f2 => Run.last structSizeHtml_1))) ?_ ?_, ?_⟩
    · simp only [structSizeHtml, List.append_assoc]
    · events
    · sounds
      exact sounds_sizes h _ _

theorem reads_enumSize (h : Converts md m) (t : Ty) :
    Reads (enumSizeHtml md (sizeText t)) (flats (DocHtml.fieldSize m 16 t)) ∧ Sounds (DocHtml.fieldSize m 16 t) := by
  unfold sizeText DocHtml.fieldSize
  cases Lsp.sizeTree t with
  | none => exact ⟨Reads.nil, trivial⟩
  | some x =>
    simp only [Option.map_some]
    refine ⟨Reads.of (fun f => Run.lit enumSizeHtml_0 (Run.reads (reads_sizes h 16 (Lsp.printSize 0 x).toList) (fun f2 => Run.last enumSizeHtml_1))) ?_ ?_, ?_⟩
    · simp only [enumSizeHtml, List.append_assoc]
    · events
    · sounds
      exact sounds_sizes h _ _

theorem reads_structField (h : Converts md m) (x : Field) :
    Reads (structFieldHtml md x) (flat (DocHtml.cls "li" "field-definition" (DocHtml.fieldParts m 10 x))) ∧
      Sound (DocHtml.cls "li" "field-definition" (DocHtml.fieldParts m 10 x)) := by
  refine ⟨Reads.of (fun f => Run.lit structFieldHtml_0 (Run.hole (t := x.name.toList) (fun f2 => Run.lit structFieldHtml_1
    (Run.hole (t := docType x.ty) (fun f3 => Run.lit structFieldHtml_2 (Run.hole (t := printNat x.id.toNat) (fun f4 =>
      Run.lit structFieldHtml_3 (Run.reads (reads_block h (mergeComments x.comment)) (fun f5 => Run.lit structFieldHtml_4
        (Run.reads (reads_structSize h x.ty).1 (fun f6 => Run.last structFieldHtml_5))))))))))) ?_ ?_, ?_⟩
  · simp only [structFieldHtml, List.append_assoc]
  · simp only [DocHtml.fieldParts, DocHtml.fieldCode]
    events
  · simp only [DocHtml.fieldParts, DocHtml.fieldCode]
    sounds
    exact ⟨sounds_block h _, (reads_structSize h x.ty).2⟩

theorem reads_enumField (h : Converts md m) (x : Field) :
    Reads (enumFieldHtml md x) (flat (DocHtml.plain "li" (DocHtml.fieldParts m 16 x))) ∧
      Sound (DocHtml.plain "li" (DocHtml.fieldParts m 16 x)) := by
  refine ⟨Reads.of (fun f => Run.lit enumFieldHtml_0 (Run.hole (t := x.name.toList) (fun f2 => Run.lit enumFieldHtml_1
    (Run.hole (t := docType x.ty) (fun f3 => Run.lit enumFieldHtml_2 (Run.hole (t := printNat x.id.toNat) (fun f4 =>
      Run.lit enumFieldHtml_3 (Run.reads (reads_block h (mergeComments x.comment)) (fun f5 => Run.lit enumFieldHtml_4
        (Run.reads (reads_enumSize h x.ty).1 (fun f6 => Run.last enumFieldHtml_5))))))))))) ?_ ?_, ?_⟩
  · simp only [enumFieldHtml, List.append_assoc]
  · simp only [DocHtml.fieldParts, DocHtml.fieldCode]
    events
  · simp only [DocHtml.fieldParts, DocHtml.fieldCode]
    sounds
    exact ⟨sounds_block h _, (reads_enumSize h x.ty).2⟩

theorem reads_structFields (h : Converts md m) (xs : List Field) :
    Reads (structFieldsHtml md xs) (flats (xs.map fun x => DocHtml.cls "li" "field-definition" (DocHtml.fieldParts m 10 x))) ∧
      Sounds (xs.map fun x => DocHtml.cls "li" "field-definition" (DocHtml.fieldParts m 10 x)) := by
  induction xs with
  | nil => exact ⟨Reads.nil, trivial⟩
  | cons x xs ih => exact ⟨(reads_structField h x).1.append ih.1, (reads_structField h x).2, ih.2⟩

theorem reads_enumFields (h : Converts md m) (xs : List Field) :
    Reads (enumFieldsHtml md xs) (flats (xs.map fun x => DocHtml.plain "li" (DocHtml.fieldParts m 16 x))) ∧
      Sounds (xs.map fun x => DocHtml.plain "li" (DocHtml.fieldParts m 16 x)) := by
  induction xs with
  | nil => exact ⟨Reads.nil, trivial⟩
  | cons x xs ih => exact ⟨(reads_enumField h x).1.append ih.1, (reads_enumField h x).2, ih.2⟩

/-- The line on the next free id. -/
def nextNodes : Option (BitVec 32) → List Node
  | some n => [DocHtml.plain "p" (say "The next free ID is " ++ [DocHtml.cls "code" "font-bold" (text (printNat n.toNat))])]
  | none => []

theorem reads_nextId (next : Option (BitVec 32)) : Reads (nextIdHtml next) (flats (nextNodes next)) ∧ Sounds (nextNodes next) := by
  cases next with
  | none => exact ⟨Reads.nil, trivial⟩
  | some n =>
    refine ⟨Reads.of (fun f => Run.lit nextIdHtml_0 (Run.hole (t := printNat n.toNat) (fun f2 => Run.last nextIdHtml_1))) ?_ ?_, ?_⟩
    · simp only [nextIdHtml, List.append_assoc]
    · simp only [nextNodes]
      events
    · simp only [nextNodes]
      sounds

theorem read_struct (h : Converts md m) (checked : Bool) (path : List String) (s : Struct) (next : Option (BitVec 32))
    (hn : Meta.nextFieldId checked s.fields = some next) :
    (structHtml md checked path s).map readHtml = some (some (DocHtml.structPage m path s next)) := by
  unfold structHtml
  rw [hn]
  simp only [Option.map_some, Option.some.injEq]
  have hp : DocHtml.structPage m path s next = DocHtml.page path s.name
      [DocHtml.part [DocHtml.heading "Struct" "name-struct" (DocHtml.trail path.length 0 path) s.name,
          DocHtml.definition (docStruct s), DocHtml.comment m s.comment],
       DocHtml.part [DocHtml.plain "h3" (say "Metadata"), DocHtml.cls "div" "pl-6 mt-2" (nextNodes next)],
       DocHtml.part [DocHtml.plain "h3" (say "Fields"), DocHtml.plain "ul" (s.fields.fields.map fun f =>
          DocHtml.cls "li" "field-definition" (DocHtml.fieldParts m 10 f))]] := by
    cases next <;> rfl
  rw [hp]
  refine reads_page path s.name _ _ (Reads.of (fun f => Run.reads (reads_heading .struct _ _ s.name (reads_trail path.length path 0))
    ((reads_definition (docStruct s)).append ((reads_comment h s.comment).append (fun f2 => Run.lit structHtml_0
      (Run.reads (reads_nextId next).1 (fun f3 => Run.lit structHtml_1 (Run.reads (reads_structFields h s.fields.fields).1
        (fun f4 => Run.last structHtml_2)))))))) ?_ ?_) ?_
  · simp only [List.append_assoc]
  · simp only [DocHtml.part]
    events
    rfl
  · simp only [DocHtml.part]
    sounds
    exact ⟨⟨sound_heading _ _ _ _ (sounds_trail _ _ _), (sound_cls _ _ _ void_pre).2 (sounds_chr _), sound_comment h _⟩,
      (reads_nextId next).2, (reads_structFields h _).2⟩

/-- The fields of a variant. -/
def variantNodes (m : DocHtml.Meaning) (v : Variant) : List Node :=
  match v.fields.kind with
  | .unit => []
  | _ => [DocHtml.cls "div" "pl-6" [DocHtml.plain "h4" (say "Fields"),
      DocHtml.plain "ul" (v.fields.fields.map fun f => DocHtml.plain "li" (DocHtml.fieldParts m 16 f))]]

theorem reads_variantFields (h : Converts md m) (v : Variant) :
    Reads (variantFieldsHtml md v) (flats (variantNodes m v)) ∧ Sounds (variantNodes m v) := by
  have key : Reads (lit "\n      <div class=\"pl-6\">\n        <h4>Fields</h4>\n        <ul>" ++ enumFieldsHtml md v.fields.fields ++
      lit "\n        </ul>\n      </div>") (flats [DocHtml.cls "div" "pl-6" [DocHtml.plain "h4" (say "Fields"),
      DocHtml.plain "ul" (v.fields.fields.map fun f => DocHtml.plain "li" (DocHtml.fieldParts m 16 f))]]) ∧
      Sounds [DocHtml.cls "div" "pl-6" [DocHtml.plain "h4" (say "Fields"),
      DocHtml.plain "ul" (v.fields.fields.map fun f => DocHtml.plain "li" (DocHtml.fieldParts m 16 f))]] := by
    refine ⟨Reads.of (fun f => Run.lit variantFieldsHtml_0 (Run.reads (reads_enumFields h v.fields.fields).1 (fun f2 =>
      Run.last variantFieldsHtml_1))) ?_ ?_, ?_⟩
    · simp only [List.append_assoc]
    · events
    · sounds
      exact (reads_enumFields h _).2
  unfold variantFieldsHtml variantNodes
  cases hk : v.fields.kind with
  | unit => exact ⟨Reads.nil, trivial⟩
  | named => exact key
  | unnamed => exact key

theorem reads_variant (h : Converts md m) (v : Variant) :
    Reads (variantHtml md v) (flat (DocHtml.cls "li" "field-definition" (DocHtml.variantParts m v))) ∧
      Sound (DocHtml.cls "li" "field-definition" (DocHtml.variantParts m v)) := by
  have hp : DocHtml.variantParts m v =
      [DocHtml.cls "code" "name-variant text-lg"
        [DocHtml.cls "span" "variant-name" (text v.name.toList),
         DocHtml.cls "span" "variant-id" (say "@" ++ text (printNat v.id.toNat))],
       DocHtml.cls "div" "markdown pl-6" (m.block (mergeComments v.comment))] ++ variantNodes m v := rfl
  rw [hp]
  refine ⟨Reads.of (fun f => Run.lit variantHtml_0 (Run.hole (t := v.name.toList) (fun f2 => Run.lit variantHtml_1
    (Run.hole (t := printNat v.id.toNat) (fun f3 => Run.lit variantHtml_2 (Run.reads (reads_block h (mergeComments v.comment))
      (fun f4 => Run.lit variantHtml_3 (Run.reads (reads_variantFields h v).1 (fun f5 => Run.last variantHtml_4))))))))) ?_ ?_, ?_⟩
  · simp only [variantHtml, List.append_assoc]
  · events
  · sounds
    exact ⟨sounds_block h _, (reads_variantFields h v).2⟩

theorem reads_variants (h : Converts md m) (vs : List Variant) :
    Reads (variantsHtml md vs) (flats (vs.map fun v => DocHtml.cls "li" "field-definition" (DocHtml.variantParts m v))) ∧
      Sounds (vs.map fun v => DocHtml.cls "li" "field-definition" (DocHtml.variantParts m v)) := by
  induction vs with
  | nil => exact ⟨Reads.nil, trivial⟩
  | cons v vs ih => exact ⟨(reads_variant h v).1.append ih.1, (reads_variant h v).2, ih.2⟩

theorem read_enum (h : Converts md m) (path : List String) (e : Enum) :
    readHtml (enumHtml md path e) = some (DocHtml.enumPage m path e) := by
  refine reads_page path e.name _ _ (Reads.of (fun f => Run.reads (reads_heading .enum _ _ e.name (reads_trail path.length path 0))
    ((reads_definition (docEnum e)).append ((reads_comment h e.comment).append (fun f2 => Run.lit enumHtml_0
      (Run.reads (reads_variants h e.variants).1 (fun f3 => Run.last enumHtml_1)))))) ?_ ?_) ?_
  · simp only [List.append_assoc]
  · simp only [DocHtml.part]
    events
    rfl
  · simp only [DocHtml.part]
    sounds
    exact ⟨⟨sound_heading _ _ _ _ (sounds_trail _ _ _), (sound_cls _ _ _ void_pre).2 (sounds_chr _), sound_comment h _⟩,
      (reads_variants h _).2⟩

end Mabo.Doc
