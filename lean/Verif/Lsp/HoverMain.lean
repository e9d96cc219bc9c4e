import Verif.Lsp.OutlineMain
import Verif.Lsp.HoverSize
import Verif.Compiler.SimplifyLemmas
import Verif.Props.Meta
/-! From the marks to the response of a hover request. -/
namespace Mabo.Lsp
open Mabo.Parse Mabo.Spanned Mabo.Spec Mabo.Spec.Doc
open Mabo.Props (NoneIsMax nextFree_spec C34_at_max)

/-! ### Marks with something to show -/

/-- What there is to show, and where. -/
abbrev Talk := Span × (List String × Note)

/-- Of marks. -/
def talks (ms : List Mark) : List Talk := ms.filterMap fun m => m.2.hover.map fun h => (m.1, h)

theorem talks_append (a b : List Mark) : talks (a ++ b) = talks a ++ talks b := List.filterMap_append
theorem talks_nil : talks [] = [] := rfl
theorem talks_plain (x : Span) (i : Item) (ms : List Mark) : talks ((x, plain i) :: ms) = talks ms := by
  simp [talks, plain]
theorem talks_names (x : Span) (k : SymbolKind) (n : String) (c : List String) (t : Note) (ms : List Mark) :
    talks ((x, names k n c t) :: ms) = (x, (c, t)) :: talks ms := by
  simp [talks, names]
theorem talks_marksOf (cs : List Call) (is : List Item) : talks (marksOf cs is) = [] := by
  unfold talks marksOf
  rw [List.filterMap_eq_nil_iff]
  intro m hm
  obtain ⟨x, _, rfl⟩ := List.mem_map.1 hm
  rfl
theorem talks_comment (ls : List Name) : talks (commentMarks ls) = [] := talks_marksOf _ _
theorem talks_list {α : Type} (marks : α → List Mark) : ∀ (as : List α) (cs : List Span)
    (l : Option Span), talks (listMarks marks as cs l) = talks (as.flatMap marks)
  | [], _, _ => rfl
  | [a], _, none => by simp [listMarks]
  | [a], _, some c => by simp [listMarks, talks_append, talks_plain, talks_nil]
  | a :: b :: as, c :: cs, l => by
    rw [listMarks, List.flatMap_cons, talks_append, talks_append, talks_plain, talks_list marks (b :: as)]
    simp
  | a :: b :: as, [], l => by
    rw [listMarks, List.flatMap_cons, talks_append, talks_append, talks_list marks (b :: as)]
    simp
theorem talks_flatMap {α : Type} (marks : α → List Mark) (as : List α) :
    talks (as.flatMap marks) = as.flatMap fun a => talks (marks a) := by
  induction as with
  | nil => rfl
  | cons a as ih => rw [List.flatMap_cons, List.flatMap_cons, talks_append, ih]

/-! ### Texts -/

theorem foldComment_eq (ls : List String) : foldComment ls = String.join (ls.map (· ++ "\n")) := by
  have key : ∀ (ls : List String) (a : String), ls.foldl (fun acc line => acc ++ line ++ "\n") a =
      (ls.map (· ++ "\n")).foldl (· ++ ·) a := by
    intro ls
    induction ls with
    | nil => intro a; rfl
    | cons l ls ih => intro a; rw [List.foldl_cons, List.map_cons, List.foldl_cons, ih, String.append_assoc]
  exact key ls ""

theorem hoverText_nothing (config : HoverConfig) (checked : Bool) (comment : List String) :
    HoverText config checked comment .nothing (foldComment comment) :=
  ⟨"", rfl, by rw [foldComment_eq]; simp⟩

theorem nextId_note {config : HoverConfig} {checked : Bool} {comment : List String} {given : List (Option (BitVec 32))}
    {ids : List (BitVec 32)} (hs : config.showNextId = true) (hc : checked = true → NoOverflow given) (ha : Assigned given ids) :
    ∃ n, Meta.nextFree checked ids = some n ∧ HoverText config checked comment (.nextId given) (foldComment comment ++ nextIdLine n) := by
  by_cases hm : NoneIsMax ids
  · obtain ⟨n, h1, h2, h3, h4⟩ := nextFree_spec checked ids hm
    refine ⟨n, h1, nextIdLine n, ?_, by rw [foldComment_eq]⟩
    simp only [NoteText, hs, if_true]
    refine ⟨ids, n.toNat, ha, rfl, fun _ => ⟨h3, h2, fun m m1 m2 => ?_⟩, fun ⟨id, hid, he⟩ => absurd he (hm id hid)⟩
    by_cases hlt : m < 2 ^ 32
    · have e : (BitVec.ofNat 32 m).toNat = m := by simp; omega
      have := h4 (BitVec.ofNat 32 m) (by rw [e]; exact m1) (fun id hid => by rw [e]; exact m2 id hid)
      rwa [e] at this
    · have := n.isLt; omega
  · have hcf : checked = false := by
      cases checked with
      | false => rfl
      | true => exact absurd (fun id hid => hc rfl ids ha id hid) hm
    subst hcf
    refine ⟨0, (C34_at_max ids hm).2, nextIdLine 0, ?_, by rw [foldComment_eq]⟩
    simp only [NoteText, hs, if_true]
    exact ⟨ids, 0, ha, rfl, fun h => absurd h hm, fun _ => by simp⟩

theorem hoverText_off {config : HoverConfig} {checked : Bool} {comment : List String} {given : List (Option (BitVec 32))}
    (hs : config.showNextId = false) : HoverText config checked comment (.nextId given) (foldComment comment) :=
  ⟨"", by simp [NoteText, hs], by rw [foldComment_eq]; simp⟩

theorem fieldsText_ok {config : HoverConfig} {checked : Bool} {comment : List String} {f : Ast.Fields} {g : Simplify.Fields}
    (h : SameFields f g) (hc : checked = true → NoOverflow (givenIds f)) :
    ∃ t, fieldsText config checked comment g = .ok t ∧ HoverText config checked comment (fieldsNote f) t := by
  cases hs : config.showNextId with
  | false =>
    refine ⟨foldComment comment, by simp [fieldsText, hs], ?_⟩
    cases f with
    | unit => exact hoverText_nothing _ _ _
    | named => exact hoverText_off hs
    | unnamed => exact hoverText_off hs
  | true =>
    cases h with
    | unit => exact ⟨foldComment comment, by simp [fieldsText, hs, Meta.nextFieldId], hoverText_nothing _ _ _⟩
    | named h1 h2 h3 ha =>
      obtain ⟨n, e, ht⟩ := nextId_note (config := config) (comment := comment) hs hc ha
      exact ⟨_, by simp [fieldsText, hs, Meta.nextFieldId, e], ht⟩
    | unnamed h1 h2 h3 ha =>
      obtain ⟨n, e, ht⟩ := nextId_note (config := config) (comment := comment) hs hc ha
      exact ⟨_, by simp [fieldsText, hs, Meta.nextFieldId, e], ht⟩

theorem variantsText_ok {config : HoverConfig} {checked : Bool} {comment : List String} {given : List (Option (BitVec 32))}
    {vs : List Simplify.Variant} (ha : Assigned given (vs.map (·.id))) (hc : checked = true → NoOverflow given) :
    ∃ t, variantsText config checked comment vs = .ok t ∧ HoverText config checked comment (.nextId given) t := by
  cases hs : config.showNextId with
  | false => exact ⟨foldComment comment, by simp [variantsText, hs], hoverText_off hs⟩
  | true =>
    obtain ⟨n, e, ht⟩ := nextId_note (config := config) (comment := comment) hs hc ha
    exact ⟨_, by simp [variantsText, hs, Meta.nextVariantId, e], ht⟩

theorem fieldText_ok {config : HoverConfig} {checked : Bool} {comment : List String} {t : Ast.DataType} {ty : Simplify.Ty}
    (h : SameType t ty) : HoverText config checked comment (.wireSize t) (fieldText config comment ty) := by
  unfold fieldText
  rw [foldComment_eq]
  refine ⟨_, ?_, rfl⟩
  cases hs : config.showWireSize with
  | false => simp [NoteText, hs]
  | true =>
    simp only [NoteText, hs, if_true]
    exact ⟨_, sizeText 0 h, rfl⟩

/-! ### The search -/

section
variable (config : HoverConfig) (checked : Bool) (source : Text) (pos : Nat)

/-- One of these is at the position, and this is shown; or none is, and nothing is shown. -/
def Shows (ts : List Talk) (res : Resp (Option (String × Span))) : Prop :=
  (∃ x ∈ ts, spanContains source x.1 pos = true ∧ ∃ t, HoverText config checked x.2.1 x.2.2 t ∧ res = .ok (some (t, x.1))) ∨
  ((∀ x ∈ ts, spanContains source x.1 pos = false) ∧ res = .ok none)

variable {config checked source pos}

theorem shows_nil : Shows config checked source pos [] (.ok none) := .inr ⟨fun _ h => (nomatch h), rfl⟩

theorem Shows.append {a b : List Talk} {r r' : Resp (Option (String × Span))} (h : Shows config checked source pos a r)
    (h' : Shows config checked source pos b r') :
    Shows config checked source pos (a ++ b) (r.bind fun | some x => .ok (some x) | none => r') := by
  rcases h with ⟨x, hx, h1, t, h2, rfl⟩ | ⟨h1, rfl⟩
  · exact .inl ⟨x, List.mem_append_left _ hx, h1, t, h2, rfl⟩
  · rcases h' with ⟨x, hx, h3, t, h4, rfl⟩ | ⟨h3, rfl⟩
    · exact .inl ⟨x, List.mem_append_right _ hx, h3, t, h4, rfl⟩
    · refine .inr ⟨fun x hx => ?_, rfl⟩
      rcases List.mem_append.1 hx with hx | hx
      · exact h1 x hx
      · exact h3 x hx

theorem shows_name {n : Name} {c : List String} {note : Note} {text : Resp String} {r : Resp (Option (String × Span))}
    {ts : List Talk} (ht : ∃ t, text = .ok t ∧ HoverText config checked c note t) (h : Shows config checked source pos ts r) :
    Shows config checked source pos ((n.span, (c, note)) :: ts) (hoverName source pos n text r) := by
  obtain ⟨t, rfl, ht⟩ := ht
  unfold hoverName
  by_cases hc : spanContains source n.span pos = true
  · rw [if_pos hc]
    exact .inl ⟨_, List.mem_cons_self, hc, t, ht, rfl⟩
  · rw [if_neg hc]
    rcases h with ⟨x, hx, h1, t, h2, rfl⟩ | ⟨h1, rfl⟩
    · exact .inl ⟨x, List.mem_cons_of_mem _ hx, h1, t, h2, rfl⟩
    · refine .inr ⟨fun x hx => ?_, rfl⟩
      rcases List.mem_cons.1 hx with rfl | hx
      · simpa using hc
      · exact h1 x hx

theorem shows_fieldList : ∀ (fs : List Spanned.NamedField) (gs : List Simplify.Field),
    gs.map (·.comment) = (fs.map NamedField.erase).map (·.comment) →
    SameTypes ((fs.map NamedField.erase).map (·.ty)) (gs.map (·.ty)) →
    Shows config checked source pos (fs.flatMap fun f => talks (namedFieldMarks f))
      (findMap (hoverField config source pos) (fs.zip gs))
  | [], _, _, _ => shows_nil
  | _ :: _, [], h, _ => by simp at h
  | f :: fs, g :: gs, h, h' => by
    simp only [List.map_cons, List.cons.injEq] at h h'
    cases h' with
    | cons h1 h2 =>
      have ih := shows_fieldList fs gs h.2 h2
      rw [List.flatMap_cons, List.zip_cons_cons, findMap]
      refine Shows.append ?_ ih
      rw [namedFieldMarks, talks_append, talks_comment, List.nil_append, talks_names, talks_plain, talks_marksOf]
      refine shows_name ⟨_, rfl, ?_⟩ shows_nil
      rw [h.1]
      exact fieldText_ok h1

theorem shows_fields {f : Spanned.Fields} {g : Simplify.Fields} (h : SameFields f.erase g) :
    Shows config checked source pos (talks (fieldsMarks f)) (hoverFields config source pos f g) := by
  cases f with
  | unit => exact shows_nil
  | named d =>
    simp only [Fields.erase] at h
    cases h with
    | named h1 h2 h3 ha =>
      have := shows_fieldList (config := config) (checked := checked) (source := source) (pos := pos) d.inner.values _ h2 h3
      simp only [fieldsMarks, hoverFields, talks_plain, talks_append, talks_list, talks_flatMap, talks_nil, List.append_nil]
      have e : (d.inner.values.zipIdx.flatMap fun x => talks (namedFieldMarks x.1)) =
          d.inner.values.flatMap fun x => talks (namedFieldMarks x) := by
        rw [List.flatMap_def, List.flatMap_def, map_zipIdx_fst (fun x => talks (namedFieldMarks x))]
      rw [e]
      exact this
  | unnamed d =>
    simp only [fieldsMarks, hoverFields, talks_plain, talks_append, talks_list, talks_flatMap, talks_nil, List.append_nil]
    have e : (d.inner.values.zipIdx.flatMap fun x => talks [(x.1.span, unnamedFieldPart x.1.erase x.2)]) = [] := by
      rw [List.flatMap_eq_nil_iff]; intro x _; rfl
    rw [e]
    exact shows_nil

theorem shows_variantList : ∀ (fs : List Spanned.Variant) (gs : List Simplify.Variant),
    gs.map (·.comment) = (fs.map Variant.erase).map (·.comment) →
    SameFieldLists ((fs.map Variant.erase).map (·.fields)) (gs.map (·.fields)) →
    (∀ v ∈ fs.map Variant.erase, checked = true → NoOverflow (givenIds v.fields)) →
    Shows config checked source pos (fs.flatMap fun f => talks (variantMarks f))
      (findMap (hoverVariant config checked source pos) (fs.zip gs))
  | [], _, _, _, _ => shows_nil
  | _ :: _, [], h, _, _ => by simp at h
  | f :: fs, g :: gs, h, h', hn => by
    simp only [List.map_cons, List.cons.injEq] at h h'
    cases h' with
    | cons h1 h2 =>
      have ih := shows_variantList fs gs h.2 h2 fun v hv => hn v (by simp at hv ⊢; exact .inr hv)
      rw [List.flatMap_cons, List.zip_cons_cons, findMap]
      refine Shows.append ?_ ih
      rw [variantMarks, talks_append, talks_comment, List.nil_append, talks_names, talks_append, talks_marksOf, List.append_nil]
      refine shows_name ?_ (shows_fields h1)
      simp only [h.1]
      exact fieldsText_ok h1 (hn f.erase (by simp))

mutual
theorem shows_definition {std : Std} : ∀ {d : Spanned.Definition} {e : Simplify.Definition}, SameDef d.erase e →
    Simplify.okDef checked d.erase →
    Shows config checked source pos (talks (definitionMarks std d)) (hoverDefinition config checked source pos d e)
  | .struct s, _, h, hn => by
    simp only [Definition.erase] at h hn
    cases h with
    | struct h =>
      simp only [definitionMarks, hoverDefinition, hoverStruct, structMarks, genericsMarks, talks_append, talks_comment, talks_plain,
        talks_names, talks_marksOf, List.nil_append]
      exact shows_name (fieldsText_ok h (Simplify.okDef_struct.1 hn)) (shows_fields h)
  | .enum e, _, h, hn => by
    simp only [Definition.erase] at h hn
    cases h with
    | enum h1 h2 h3 h4 =>
      simp only [definitionMarks, hoverDefinition, hoverEnum, enumMarks, genericsMarks, talks_append, talks_comment, talks_plain,
        talks_names, talks_marksOf, List.nil_append, talks_list, talks_flatMap, talks_nil, List.append_nil]
      obtain ⟨n1, n2⟩ := Simplify.okDef_enum.1 hn
      have e1 : (e.variants.inner.values.zipIdx.flatMap fun x => talks (variantMarks x.1)) =
          e.variants.inner.values.flatMap fun x => talks (variantMarks x) := by
        rw [List.flatMap_def, List.flatMap_def, map_zipIdx_fst (fun x => talks (variantMarks x))]
      rw [e1]
      exact shows_name (variantsText_ok h3 n1) (shows_variantList _ _ h2 h4 n2)
  | .typeAlias a, _, h, hn => by
    simp only [Definition.erase] at h hn
    cases h with
    | typeAlias h =>
      simp only [definitionMarks, hoverDefinition, aliasMarks, genericsMarks, talks_append, talks_comment, talks_plain,
        talks_names, talks_marksOf, List.nil_append]
      exact shows_name ⟨_, rfl, hoverText_nothing _ _ _⟩ shows_nil
  | .const a, _, h, hn => by
    simp only [Definition.erase] at h hn
    cases h with
    | const h =>
      simp only [definitionMarks, hoverDefinition, constMarks, talks_append, talks_comment, talks_plain,
        talks_names, talks_marksOf, List.nil_append]
      exact shows_name ⟨_, rfl, hoverText_nothing _ _ _⟩ shows_nil
  | .import i, _, h, hn => by
    simp only [Definition.erase] at h hn
    cases h with
    | «import» =>
      simp only [definitionMarks, hoverDefinition]
      have : talks (importMarks i) = [] := by
        unfold importMarks
        cases i.segments <;> rfl
      rw [this]
      exact shows_nil
  | .module c k n o ds cl, _, h, hn => by
    simp only [Definition.erase] at h hn
    cases h with
    | module h =>
      simp only [definitionMarks, hoverDefinition, talks_append, talks_comment, talks_plain, talks_names, talks_nil,
        List.nil_append, List.append_nil]
      exact shows_name ⟨_, rfl, hoverText_nothing _ _ _⟩ (shows_definitions h fun d hd d' hi => hn d' (.module hd hi))
theorem shows_definitions {std : Std} : ∀ {ds : List Spanned.Definition} {es : List Simplify.Definition},
    SameDefs (ds.map Definition.erase) es → (∀ d ∈ ds.map Definition.erase, Simplify.okDef checked d) →
    Shows config checked source pos (talks (definitionsMarks std ds)) (hoverDefinitions config checked source pos ds es)
  | [], _, _, _ => by
    simp only [definitionsMarks, hoverDefinitions]
    exact shows_nil
  | d :: ds, _, h, hn => by
    simp only [List.map_cons] at h
    cases h with
    | cons h1 h2 =>
      simp only [definitionsMarks, hoverDefinitions, talks_append]
      exact Shows.append (shows_definition h1 (hn _ (by simp))) (shows_definitions h2 fun d hd => hn d (by
        rw [List.map_cons]; exact List.mem_cons_of_mem _ hd))
end

end

/-! ### Cursor -/

theorem prefix_bytes {a x y b : Text} (e : a ++ b = x ++ y) : bytes x ≤ bytes a ↔ x.length ≤ a.length := by
  rcases List.append_eq_append_iff.1 e with ⟨c, rfl, _⟩ | ⟨c, rfl, _⟩
  · constructor
    · intro h
      have : bytes c = 0 := by rw [bytes_app] at h; omega
      cases c with
      | nil => simp
      | cons d c => have := Char.utf8Size_pos d; simp [bytes] at *; omega
    · intro h
      have : c = [] := by cases c with | nil => rfl | cons => simp at h; omega
      subst this; simp
  · simp [bytes_app]
where bytes_app (a b : Text) : bytes (a ++ b) = bytes a + bytes b := by simp [bytes]

theorem under_iff {text : Text} {m : Mark} (h : InText text m) {a b : Text} (e : text = a ++ b) :
    spanContains text m.1 (bytes a) = true ↔ (placeOf text m.1).Under a := by
  obtain ⟨p, v, q, e', h2, _⟩ := h
  have hp : placeOf text m.1 = ⟨p, v⟩ := by rw [e', h2, placeOf_eq]
  have e1 : Spanned.offset text m.1.start = bytes p := by rw [e', h2]; exact offset_append _ _
  have e2 : Spanned.offset text m.1.stop = bytes (p ++ v) := by
    rw [e', h2, ← List.append_assoc]; exact offset_append _ _
  rw [spanContains, decide_eq_true_eq, e1, e2, hp, Place.Under]
  have k1 := prefix_bytes (a := a) (b := b) (x := p) (y := v ++ q) (by rw [← e, e'])
  have k2 := prefix_bytes (a := a) (b := b) (x := p ++ v) (y := q) (by rw [← e, e']; simp)
  rw [List.length_append] at k2
  show _ ↔ p.length ≤ a.length ∧ a.length < p.length + v.length
  omega

end Mabo.Lsp
