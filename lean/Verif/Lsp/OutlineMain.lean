import Verif.Lsp.OutlineDefs
/-! From the marks to the response with the document symbols. -/
namespace Mabo.Lsp
open Mabo.Parse Mabo.Spanned Mabo.Spec Mabo.Spec.Doc

/-! ### Places -/

/-- The place of a span. -/
def placeOf (text : Text) (x : Span) : Place :=
  ⟨text.take (text.length - x.start.length), x.start.take (x.start.length - x.stop.length)⟩

/-- A mark is somewhere in the text. -/
def InText (text : Text) (m : Mark) : Prop := ∃ a v b : Text, text = a ++ (v ++ b) ∧ m.1 = ⟨v ++ b, b⟩ ∧ v ≠ [] ∧ m.2.text v

theorem placeOf_eq (a v b : Text) : placeOf (a ++ (v ++ b)) ⟨v ++ b, b⟩ = ⟨a, v⟩ := by
  simp [placeOf]

theorem span_eta {x : Span} {v : Text} (h : x.start = v ++ x.stop) : x = ⟨v ++ x.stop, x.stop⟩ := by
  cases x; simp only at h; rw [h]

theorem Lies.placed {s r : Text} {ms : List Mark} (h : Lies s r ms) : ∀ (text before : Text), text = before ++ s →
    Placed before s (ms.map fun m => placeOf text m.1) (ms.map (·.2)) := by
  induction h with
  | nil _ => intro _ _ _; exact trivial
  | @cons s r v x g ms h1 h2 h3 h4 _ ih =>
    intro text before e
    obtain ⟨gap, rfl⟩ := h1
    have e' : text = (before ++ gap) ++ (v ++ x.stop) := by rw [e]; simp
    have hx : placeOf text x = ⟨before ++ gap, v⟩ := by
      rw [span_eta h2, e']; exact placeOf_eq _ _ _
    simp only [List.map, hx]
    exact ⟨gap, x.stop, by simp, rfl, h3, h4, ih text _ (by rw [e]; simp)⟩

theorem Lies.inText {s r : Text} {ms : List Mark} (h : Lies s r ms) : ∀ (text before : Text), text = before ++ s →
    ∀ m ∈ ms, InText text m := by
  induction h with
  | nil _ => intro _ _ _ m hm; cases hm
  | @cons s r v x g ms h1 h2 h3 h4 _ ih =>
    intro text before e m hm
    obtain ⟨gap, rfl⟩ := h1
    rcases List.mem_cons.1 hm with rfl | hm
    · exact ⟨before ++ gap, v, x.stop, by rw [e]; simp, span_eta h2, h3, h4⟩
    · exact ih text (before ++ gap ++ v) (by rw [e]; simp) m hm

theorem InText.range {enc : Encoding} {position : Text → Nat → Option Position} (hp : PositionContract enc position)
    {text : Text} {m : Mark} (h : InText text m) :
    getRange (position text) text m.1 = .ok ((placeOf text m.1).range enc) := by
  obtain ⟨a, v, b, rfl, h2, _⟩ := h
  rw [h2, placeOf_eq]
  have e1 : Spanned.offset (a ++ (v ++ b)) (v ++ b) = bytes a := offset_append _ _
  have e2 : Spanned.offset (a ++ (v ++ b)) b = bytes (a ++ v) := by rw [← List.append_assoc, offset_append]
  have e3 : position (a ++ (v ++ b)) (bytes (a ++ v)) = some (posOf enc (a ++ v)) := by
    rw [← List.append_assoc]; exact hp _ _
  have e4 : position (a ++ (v ++ b)) (bytes a) = some (posOf enc a) := hp _ _
  simp only [getRange, e1, e2, e4, e3, Place.range]

/-! ### Marks that declare nothing -/

/-- The entries of marks. -/
def entriesAt (enc : Encoding) (text : Text) (ms : List Mark) : List Entry :=
  ms.filterMap fun m => entryOf enc (placeOf text m.1) m.2

theorem entriesAt_append (enc : Encoding) (text : Text) (a b : List Mark) :
    entriesAt enc text (a ++ b) = entriesAt enc text a ++ entriesAt enc text b := List.filterMap_append
theorem entriesAt_nil (enc : Encoding) (text : Text) : entriesAt enc text [] = [] := rfl
theorem entriesAt_plain (enc : Encoding) (text : Text) (x : Span) (i : Item) (ms : List Mark) :
    entriesAt enc text ((x, plain i) :: ms) = entriesAt enc text ms := by
  simp [entriesAt, entryOf, plain]
theorem entriesAt_marksOf (enc : Encoding) (text : Text) (cs : List Call) (is : List Item) :
    entriesAt enc text (marksOf cs is) = [] := by
  unfold entriesAt marksOf
  rw [List.filterMap_eq_nil_iff]
  intro m hm
  obtain ⟨x, _, rfl⟩ := List.mem_map.1 hm
  rfl
theorem entriesAt_comment (enc : Encoding) (text : Text) (ls : List Name) : entriesAt enc text (commentMarks ls) = [] :=
  entriesAt_marksOf _ _ _ _

theorem entriesAt_list (enc : Encoding) (text : Text) {α : Type} (marks : α → List Mark) : ∀ (as : List α) (cs : List Span)
    (l : Option Span), entriesAt enc text (listMarks marks as cs l) = entriesAt enc text (as.flatMap marks)
  | [], _, _ => rfl
  | [a], _, none => by simp [listMarks]
  | [a], _, some c => by simp [listMarks, entriesAt_append, entriesAt_plain, entriesAt_nil]
  | a :: b :: as, c :: cs, l => by
    rw [listMarks, List.flatMap_cons, entriesAt_append, entriesAt_append, entriesAt_plain, entriesAt_list enc text marks (b :: as)]
    simp
  | a :: b :: as, [], l => by
    rw [listMarks, List.flatMap_cons, entriesAt_append, entriesAt_append, entriesAt_list enc text marks (b :: as)]
    simp

/-! ### Symbols -/

section
variable (enc : Encoding) (text : Text)

/-- A symbol with this outline and the entries of these marks. -/
def OkSym (res : Resp Symbol) (o : Outline) (es : List Entry) : Prop :=
  ∃ s, res = .ok s ∧ shape s = o ∧ entries s = es
/-- For lists. -/
def OkSyms (res : Resp (List Symbol)) (os : List Outline) (es : List Entry) : Prop :=
  ∃ ss, res = .ok ss ∧ shapes ss = os ∧ entriesOf ss = es

theorem okSyms_nil : OkSyms (.ok []) [] [] := ⟨[], rfl, rfl, rfl⟩

theorem okSyms_cons {r : Resp Symbol} {rs : Resp (List Symbol)} {o os e es} (h : OkSym r o e) (h' : OkSyms rs os es) :
    OkSyms (r.bind fun s => rs.bind fun ss => .ok (s :: ss)) (o :: os) (e ++ es) := by
  obtain ⟨s, rfl, h2, h3⟩ := h
  obtain ⟨ss, rfl, h5, h6⟩ := h'
  exact ⟨s :: ss, rfl, by simp [shapes, h2, h5], by simp [entriesOf, h3, h6]⟩

theorem okSyms_collect {α : Type} {visit : α → Resp Symbol} {o : α → Outline} {e : α → List Entry} : ∀ (as : List α),
    (∀ a ∈ as, OkSym (visit a) (o a) (e a)) → OkSyms (collect visit as) (as.map o) (as.flatMap e)
  | [], _ => okSyms_nil
  | a :: as, h => by
    rw [collect, List.map_cons, List.flatMap_cons]
    exact okSyms_cons (h a (by simp)) (okSyms_collect as fun b hb => h b (by simp [hb]))

theorem entriesAt_flatMap {α : Type} (marks : α → List Mark) (as : List α) :
    entriesAt enc text (as.flatMap marks) = as.flatMap fun a => entriesAt enc text (marks a) := by
  induction as with
  | nil => rfl
  | cons a as ih => rw [List.flatMap_cons, List.flatMap_cons, entriesAt_append, ih]

variable {enc text} {position : Text → Nat → Option Position} (hp : PositionContract enc position)
include hp

theorem okSym_at {name : String} {kind : SymbolKind} {m : Mark} {children : Resp (List Symbol)} {os : List Outline} {es : List Entry}
    (hm : InText text m) (hs : m.2.symbol = some (kind, name)) (hc : OkSyms children os es) :
    OkSym (symbolAt (position text) text name kind m.1 children) (.node kind name os) (entriesAt enc text [m] ++ es) := by
  obtain ⟨ss, rfl, h2, h3⟩ := hc
  refine ⟨createSymbol name kind ((placeOf text m.1).range enc) ss, by simp only [symbolAt, hm.range hp, Resp.bind], ?_, ?_⟩
  · cases ss with
    | nil => rw [← h2]; simp [createSymbol, shape, shapes]
    | cons x xs => rw [← h2]; simp [createSymbol, shape]
  · cases ss with
    | nil => rw [← h3]; simp [createSymbol, entries, entriesOf, entriesAt, entryOf, hs]
    | cons x xs => rw [← h3]; simp [createSymbol, entries, entriesAt, entryOf, hs]

omit hp in
theorem entriesAt_cons (m : Mark) (ms : List Mark) : entriesAt enc text (m :: ms) = entriesAt enc text [m] ++ entriesAt enc text ms :=
  entriesAt_append enc text [m] ms

theorem okSym_namedField (f : Spanned.NamedField) (h : ∀ m ∈ namedFieldMarks f, InText text m) :
    OkSym (symbolNamedField (position text) text f) (.node .property f.erase.name []) (entriesAt enc text (namedFieldMarks f)) := by
  have := okSym_at hp (h (f.name.span, names .property f.name.value (f.comment.map Name.value) (.wireSize f.ty.erase))
    (by simp [namedFieldMarks])) rfl okSyms_nil
  rw [namedFieldMarks, entriesAt_append, entriesAt_comment, entriesAt_cons, entriesAt_plain, entriesAt_marksOf]
  exact this

theorem okSym_unnamedField (x : Spanned.UnnamedField × Nat) (h : InText text (x.1.span, unnamedFieldPart x.1.erase x.2)) :
    OkSym (symbolUnnamedField (position text) text x) (.node .property (Nat.repr x.2) [])
      (entriesAt enc text [(x.1.span, unnamedFieldPart x.1.erase x.2)]) := by
  have := okSym_at hp (name := Nat.repr x.2) (kind := .property) h rfl okSyms_nil
  rw [List.append_nil] at this
  exact this

omit hp in
theorem mem_listMarks {α : Type} {marks : α → List Mark} {m : Mark} : ∀ {as : List α} {cs : List Span} {l : Option Span} {a : α},
    a ∈ as → m ∈ marks a → m ∈ listMarks marks as cs l
  | [b], _, l, a, ha, hm => by
    rw [List.mem_singleton] at ha; subst ha
    cases l with
    | none => simpa [listMarks] using hm
    | some c => simp [listMarks, hm]
  | b :: c :: as, d :: cs, l, a, ha, hm => by
    show m ∈ marks b ++ (d, _) :: listMarks marks (c :: as) cs l
    rcases List.mem_cons.1 ha with rfl | ha
    · exact List.mem_append_left _ hm
    · exact List.mem_append_right _ (List.mem_cons_of_mem _ (mem_listMarks ha hm))
  | b :: c :: as, [], l, a, ha, hm => by
    show m ∈ marks b ++ listMarks marks (c :: as) [] l
    rcases List.mem_cons.1 ha with rfl | ha
    · exact List.mem_append_left _ hm
    · exact List.mem_append_right _ (mem_listMarks ha hm)

theorem okSyms_fields (f : Spanned.Fields) (h : ∀ m ∈ fieldsMarks f, InText text m) :
    OkSyms (symbolFields (position text) text f) (outlineFields f.erase) (entriesAt enc text (fieldsMarks f)) := by
  cases f with
  | unit => exact okSyms_nil
  | named d =>
    have := okSyms_collect d.inner.values (visit := symbolNamedField (position text) text)
      (o := fun f => .node .property f.erase.name []) (e := fun f => entriesAt enc text (namedFieldMarks f)) fun f hf =>
        okSym_namedField hp f fun m hm => by
          obtain ⟨i, hi⟩ : ∃ i, (f, i) ∈ d.inner.values.zipIdx := by
            have : f ∈ d.inner.values.zipIdx.map (·.1) := by rw [List.zipIdx_map_fst]; exact hf
            obtain ⟨x, hx, rfl⟩ := List.mem_map.1 this
            exact ⟨x.2, hx⟩
          refine h m ?_
          simp only [fieldsMarks]
          exact List.mem_cons_of_mem _ (List.mem_append_left _ (mem_listMarks (a := (f, i)) hi hm))
    simp only [symbolFields, Fields.erase, outlineFields, fieldsMarks, entriesAt_plain, entriesAt_append, entriesAt_list,
      entriesAt_flatMap, entriesAt_nil, List.append_nil, List.map_map]
    have e : (d.inner.values.zipIdx.flatMap fun x => entriesAt enc text (namedFieldMarks x.1)) =
        d.inner.values.flatMap fun x => entriesAt enc text (namedFieldMarks x) := by
      rw [List.flatMap_def, List.flatMap_def, map_zipIdx_fst (fun x => entriesAt enc text (namedFieldMarks x))]
    rw [e]
    exact this
  | unnamed d =>
    have := okSyms_collect d.inner.values.zipIdx (visit := symbolUnnamedField (position text) text)
      (o := fun x => .node .property (Nat.repr x.2) [])
      (e := fun x => entriesAt enc text [(x.1.span, unnamedFieldPart x.1.erase x.2)]) fun x hx =>
        okSym_unnamedField hp x (h _ (by
          simp only [fieldsMarks]
          exact List.mem_cons_of_mem _ (List.mem_append_left _ (mem_listMarks hx (by simp)))))
    simp only [symbolFields, Fields.erase, outlineFields, fieldsMarks, entriesAt_plain, entriesAt_append, entriesAt_list,
      entriesAt_flatMap, entriesAt_nil, List.append_nil, List.zipIdx_map, List.map_map]
    exact this

theorem okSym_struct (s : Spanned.Struct) (h : ∀ m ∈ structMarks s, InText text m) :
    OkSym (symbolStruct (position text) text s) (outlineDefinition (.struct s.erase)) (entriesAt enc text (structMarks s)) := by
  have := okSym_at hp (h (s.name.span, names .struct s.name.value (s.comment.map Name.value) (fieldsNote s.fields.erase))
    (by simp [structMarks])) rfl (okSyms_fields hp s.fields fun m hm => h m (by simp [structMarks, hm]))
  simp only [outlineDefinition]
  rw [structMarks, entriesAt_append, entriesAt_comment, entriesAt_plain, entriesAt_cons, entriesAt_append, genericsMarks,
    entriesAt_marksOf]
  exact this

theorem okSym_variant (v : Spanned.Variant) (h : ∀ m ∈ variantMarks v, InText text m) :
    OkSym (symbolVariant (position text) text v) (.node .enumMember v.erase.name (outlineFields v.erase.fields))
      (entriesAt enc text (variantMarks v)) := by
  have := okSym_at hp (h (v.name.span, names .enumMember v.name.value (v.comment.map Name.value) (fieldsNote v.fields.erase))
    (by simp [variantMarks])) rfl (okSyms_fields hp v.fields fun m hm => h m (by simp [variantMarks, hm]))
  rw [variantMarks, entriesAt_append, entriesAt_comment, entriesAt_cons, entriesAt_append, entriesAt_marksOf, List.append_nil]
  exact this

theorem okSym_enum (e : Spanned.Enum) (h : ∀ m ∈ enumMarks e, InText text m) :
    OkSym (symbolEnum (position text) text e) (outlineDefinition (.enum e.erase)) (entriesAt enc text (enumMarks e)) := by
  have hv := okSyms_collect e.variants.inner.values (visit := symbolVariant (position text) text)
      (o := fun v => .node .enumMember v.erase.name (outlineFields v.erase.fields))
      (e := fun v => entriesAt enc text (variantMarks v)) fun f hf =>
        okSym_variant hp f fun m hm => by
          obtain ⟨i, hi⟩ : ∃ i, (f, i) ∈ e.variants.inner.values.zipIdx := by
            have : f ∈ e.variants.inner.values.zipIdx.map (·.1) := by rw [List.zipIdx_map_fst]; exact hf
            obtain ⟨x, hx, rfl⟩ := List.mem_map.1 this
            exact ⟨x.2, hx⟩
          refine h m ?_
          simp only [enumMarks, List.mem_append, List.mem_cons]
          exact .inr (.inr (.inr (.inr (.inr (.inl (mem_listMarks (a := (f, i)) hi hm))))))
  have := okSym_at hp (h (e.name.span, names .enum e.name.value (e.comment.map Name.value) (.nextId (e.erase.variants.map (·.id))))
    (by simp [enumMarks])) rfl hv
  simp only [outlineDefinition]
  have e1 : (e.variants.inner.values.zipIdx.flatMap fun x => entriesAt enc text (variantMarks x.1)) =
        e.variants.inner.values.flatMap fun x => entriesAt enc text (variantMarks x) := by
    rw [List.flatMap_def, List.flatMap_def, map_zipIdx_fst (fun x => entriesAt enc text (variantMarks x))]
  rw [enumMarks, entriesAt_append, entriesAt_comment, entriesAt_plain, entriesAt_cons, entriesAt_append, genericsMarks,
    entriesAt_marksOf, entriesAt_plain, entriesAt_append, entriesAt_list, entriesAt_flatMap, e1, entriesAt_plain, entriesAt_nil]
  simp only [Enum.erase, Punctuated.erase, List.map_map, List.append_nil, List.nil_append]
  exact this

theorem okSym_alias (a : Spanned.TypeAlias) (h : ∀ m ∈ aliasMarks a, InText text m) :
    OkSym (symbolAlias (position text) text a) (outlineDefinition (.typeAlias a.erase)) (entriesAt enc text (aliasMarks a)) := by
  have := okSym_at hp (h (a.name.span, names .variable a.name.value (a.comment.map Name.value) .nothing)
    (by simp [aliasMarks])) rfl okSyms_nil
  simp only [outlineDefinition]
  rw [aliasMarks, entriesAt_append, entriesAt_comment, entriesAt_plain, entriesAt_cons, entriesAt_append, genericsMarks,
    entriesAt_marksOf, entriesAt_marksOf]
  exact this

theorem okSym_const {std : Std} (c : Spanned.Const) (h : ∀ m ∈ constMarks std c, InText text m) :
    OkSym (symbolConst (position text) text c) (outlineDefinition (.const c.erase)) (entriesAt enc text (constMarks std c)) := by
  have := okSym_at hp (h (c.name.span, names .constant c.name.value (c.comment.map Name.value) .nothing)
    (by simp [constMarks])) rfl okSyms_nil
  simp only [outlineDefinition]
  rw [constMarks, entriesAt_append, entriesAt_comment, entriesAt_plain, entriesAt_cons, entriesAt_marksOf]
  exact this

omit hp in
theorem importPath_pathText (n : Name) (ns : List Name) (el : Option (Span × Name)) (k c : Span) :
    (importPath (n.value, n.span) (ns ++ (el.map (·.2)).toList)).1 = pathText (Import.erase ⟨k, n :: ns, el, c⟩) := by
  rw [importPath_text]
  cases el <;> simp [pathText, Import.erase, Function.comp_def]

theorem okSym_import (i : Spanned.Import) (h : ∀ m ∈ importMarks i, InText text m) :
    OkSym (symbolImport (position text) text i) (outlineDefinition (.import i.erase)) (entriesAt enc text (importMarks i)) := by
  obtain ⟨k, segs, el, c⟩ := i
  cases segs with
  | nil =>
    obtain ⟨_, _, _, _, _, _, hf⟩ := h (k, ⟨fun _ => False, none, none⟩) (by simp [importMarks])
    exact hf.elim
  | cons n ns =>
    simp only [outlineDefinition, symbolImport]
    have e := importPath_pathText n ns el k c
    rw [e]
    have := okSym_at hp (name := pathText (Import.erase ⟨k, n :: ns, el, c⟩)) (kind := .file)
      (h ((importPath (n.value, n.span) (ns ++ (el.map (·.2)).toList)).2,
        ⟨(· = (pathText (Import.erase ⟨k, n :: ns, el, c⟩)).toList), some (.file, pathText (Import.erase ⟨k, n :: ns, el, c⟩)), none⟩)
        (by simp [importMarks])) rfl okSyms_nil
    simp only [importMarks, entriesAt_plain]
    rw [List.append_nil] at this
    exact this

mutual
theorem okSym_definition {std : Std} : ∀ (d : Spanned.Definition), (∀ m ∈ definitionMarks std d, InText text m) →
    OkSym (symbolDefinition (position text) text d) (outlineDefinition d.erase) (entriesAt enc text (definitionMarks std d))
  | .struct s, h => by
    simp only [definitionMarks] at h
    simp only [symbolDefinition, definitionMarks, Definition.erase]; exact okSym_struct hp s h
  | .enum s, h => by
    simp only [definitionMarks] at h
    simp only [symbolDefinition, definitionMarks, Definition.erase]; exact okSym_enum hp s h
  | .typeAlias s, h => by
    simp only [definitionMarks] at h
    simp only [symbolDefinition, definitionMarks, Definition.erase]; exact okSym_alias hp s h
  | .const s, h => by
    simp only [definitionMarks] at h
    simp only [symbolDefinition, definitionMarks, Definition.erase]; exact okSym_const hp s h
  | .import s, h => by
    simp only [definitionMarks] at h
    simp only [symbolDefinition, definitionMarks, Definition.erase]; exact okSym_import hp s h
  | .module c k n o ds cl, h => by
    simp only [definitionMarks] at h
    have := okSym_at hp (h (n.span, names .module n.value (c.map Name.value) .nothing) (by simp)) rfl
      (okSyms_definitions (std := std) ds fun m hm => h m (by simp [hm]))
    simp only [symbolDefinition, definitionMarks, Definition.erase, outlineDefinition]
    rw [entriesAt_append, entriesAt_comment, entriesAt_plain, entriesAt_cons, entriesAt_plain, entriesAt_append,
      entriesAt_plain, entriesAt_nil, List.append_nil]
    exact this
theorem okSyms_definitions {std : Std} : ∀ (ds : List Spanned.Definition), (∀ m ∈ definitionsMarks std ds, InText text m) →
    OkSyms (symbolDefinitions (position text) text ds) (outlineDefinitions (ds.map Definition.erase))
      (entriesAt enc text (definitionsMarks std ds))
  | [], _ => by
    simp only [symbolDefinitions, definitionsMarks, List.map_nil, outlineDefinitions]
    exact okSyms_nil
  | d :: ds, h => by
    simp only [definitionsMarks] at h
    simp only [symbolDefinitions, definitionsMarks, List.map_cons, outlineDefinitions, entriesAt_append]
    exact okSyms_cons (okSym_definition d fun m hm => h m (List.mem_append_left _ hm))
      (okSyms_definitions ds fun m hm => h m (List.mem_append_right _ hm))
end

end

end Mabo.Lsp
