import Verif.Lsp.DiagPlaces
/-! Every error of the validator is a complaint about the schema, with the right ranges. -/
namespace Mabo.Lsp
open Mabo.Parse Mabo.Spanned Mabo.Spec Mabo.Spec.Doc Mabo.Spec.Diag
open Mabo.Compiler (assignFrom assigned_assignFrom andThen_fail map_getElem? getElem?_of_map)

section
variable (std : Std) (text : Text) (s : Spanned.Schema)

/-- A list of definitions of the schema. -/
structure SScope (n : Nat) (ds : List Spanned.Definition) : Prop where
  at_ : At (visitDefinitions s.definitions) n (visitDefinitions ds)
  ok : ∀ d ∈ ds, ParsedDef std text d
  spec : ScopeAt std s.erase n (ds.map Spanned.Definition.erase)
/-- A definition. -/
structure SDef (n : Nat) (d : Spanned.Definition) : Prop where
  at_ : At (visitDefinitions s.definitions) n (visitDefinition d)
  ok : ParsedDef std text d
  spec : DefAt std s.erase n d.erase
/-- Variants. -/
structure SVariants (n : Nat) (d : Punctuated Spanned.Variant) : Prop where
  at_ : At (visitDefinitions s.definitions) n (visitList visitVariant d.values d.commas d.last)
  ok : ListOk (VariantOk text) d
  spec : VariantsAt std s.erase n (d.values.map Spanned.Variant.erase)
/-- Fields. -/
structure SFields (n : Nat) (f : Spanned.Fields) : Prop where
  at_ : At (visitDefinitions s.definitions) n (visitFields f)
  ok : FieldsOk text f
  spec : FieldsAt std s.erase n f.erase
/-- A type. -/
structure STy (n : Nat) (t : Ty) : Prop where
  at_ : At (visitDefinitions s.definitions) n (visitType t)
  ok : TyOk t
  spec : TypeAt std s.erase n t.erase
end

section
variable {std : Std} {text : Text} {s : Spanned.Schema}

theorem sScope_root (h : Spanned.parseSchema std text = some s) : SScope std text s 0 s.definitions :=
  ⟨.self _, parsed_schema h, .root⟩

theorem length_defs {ds : List Spanned.Definition} (h : ∀ d ∈ ds, ParsedDef std text d) :
    (visitDefinitions ds).length = (definitionsItems std (ds.map Spanned.Definition.erase)).length := by
  rw [visitDefinitions_eq, definitionsItems_eq, List.length_flatMap, List.length_flatMap, List.map_map]
  congr 1
  exact List.map_congr_left fun d hd => (h d hd).len

theorem split_at {α : Type} {l : List α} {i : Nat} {a : α} (h : l[i]? = some a) : l = l.take i ++ a :: l.drop (i + 1) := by
  obtain ⟨hi, rfl⟩ := List.getElem?_eq_some_iff.1 h
  rw [← List.drop_eq_getElem_cons hi, List.take_append_drop]

theorem sDef {n : Nat} {ds : List Spanned.Definition} (h : SScope std text s n ds) {i : Nat} {d : Spanned.Definition}
    (hd : ds[i]? = some d) :
    SDef std text s (n + (definitionsItems std ((ds.map Spanned.Definition.erase).take i)).length) d := by
  refine ⟨?_, h.ok d (List.mem_of_getElem? hd), n, _, i, h.spec, map_getElem? hd, rfl⟩
  have e : visitDefinitions ds = visitDefinitions (ds.take i) ++ (visitDefinition d ++ visitDefinitions (ds.drop (i + 1))) := by
    conv => lhs; rw [split_at hd]
    simp [visitDefinitions_eq]
  have h1 := h.at_
  rw [e] at h1
  have h2 := h1.mid
  rw [length_defs fun d hd => h.ok d (List.mem_of_mem_take hd), List.map_take] at h2
  exact h2

theorem length_comment (c : List Name) : (visitComment c).length = (c.map Name.value).length := by simp [visitComment]

theorem sScope_inner {n : Nat} {c : List Name} {k o cl : Span} {name : Name} {ds : List Spanned.Definition}
    (h : SDef std text s n (.module c k name o ds cl)) : SScope std text s (n + c.length + 3) ds := by
  refine ⟨?_, h.ok.parts, ?_⟩
  · have h1 := h.at_
    simp only [visitDefinition, List.append_assoc] at h1
    have h2 := h1.right.mid
    simpa [visitComment] using h2
  · obtain ⟨m, ds', i, h1, h2, rfl⟩ := h.spec
    simp only [Spanned.Definition.erase] at h2
    have := ScopeAt.inner h1 h2
    simpa using this

theorem sFields_struct {n : Nat} {st : Spanned.Struct} (h : SDef std text s n (.struct st)) :
    SFields std text s (n + st.erase.comment.length + 2 + paramTokens (.struct st.erase)) st.fields := by
  obtain ⟨g, f⟩ := h.ok.parts
  refine ⟨?_, f, .struct (by simpa [Spanned.Definition.erase] using h.spec)⟩
  have h1 := h.at_
  simp only [visitDefinition, visitStruct, List.append_assoc] at h1
  have h2 := h1.right.right.right
  rw [g.2] at h2
  simpa [visitComment, paramTokens, Spanned.Struct.erase] using h2

theorem sVariants {n : Nat} {e : Spanned.Enum} (h : SDef std text s n (.enum e)) :
    SVariants std text s (n + e.erase.comment.length + 2 + paramTokens (.enum e.erase) + 1) e.variants.inner := by
  obtain ⟨g, f⟩ := h.ok.parts
  refine ⟨?_, f, .mk (by simpa [Spanned.Definition.erase] using h.spec)⟩
  have h1 := h.at_
  simp only [visitDefinition, visitEnum, List.append_assoc] at h1
  have h2 := h1.right.right.right.right.left
  rw [g.2] at h2
  simpa [visitComment, paramTokens, Spanned.Enum.erase] using h2

theorem sVariant {n : Nat} {d : Punctuated Spanned.Variant} (h : SVariants std text s n d) {i : Nat} {v : Spanned.Variant}
    (hv : d.values[i]? = some v) :
    VariantOk text v ∧ At (visitDefinitions s.definitions)
      (n + withCommas (((d.values.map Spanned.Variant.erase).take i).map Spec.variantItems)) (visitVariant v) :=
  list_at h.ok (fun _ h => h.len) h.at_ hv

theorem sFields_variant {n : Nat} {d : Punctuated Spanned.Variant} (h : SVariants std text s n d) {i : Nat} {v : Spanned.Variant}
    (hv : d.values[i]? = some v) :
    SFields std text s (n + withCommas (((d.values.map Spanned.Variant.erase).take i).map Spec.variantItems) +
      v.erase.comment.length + 1) v.fields := by
  obtain ⟨h1, h2⟩ := sVariant h hv
  refine ⟨?_, h1.fields, .variant h.spec (map_getElem? hv)⟩
  simp only [visitVariant, List.append_assoc] at h2
  have h3 := h2.right.right.left
  simpa [visitComment, Spanned.Variant.erase] using h3

theorem sNamed {n : Nat} {d : Delimited (Punctuated Spanned.NamedField)} (h : SFields std text s n (.named d)) {i : Nat}
    {f : Spanned.NamedField} (hf : d.inner.values[i]? = some f) :
    NamedOk text f ∧ At (visitDefinitions s.definitions)
      (n + 1 + withCommas (((d.inner.values.map Spanned.NamedField.erase).take i).map namedFieldItems)) (visitNamedField f) := by
  have h1 := h.at_
  simp only [visitFields, List.append_assoc] at h1
  exact list_at h.ok (fun _ h => h.len) h1.mid hf

theorem sUnnamed {n : Nat} {d : Delimited (Punctuated Spanned.UnnamedField)} (h : SFields std text s n (.unnamed d)) {i : Nat}
    {f : Spanned.UnnamedField} (hf : d.inner.values[i]? = some f) :
    UnnamedOk text f ∧ At (visitDefinitions s.definitions)
      (n + 1 + withCommas (((d.inner.values.map Spanned.UnnamedField.erase).take i).map unnamedFieldItems)) (visitUnnamedField f) := by
  have h1 := h.at_
  simp only [visitFields, List.append_assoc] at h1
  exact list_at h.ok (fun _ h => h.len) h1.mid hf

theorem sTy_field {n : Nat} {f : Spanned.Fields} (h : SFields std text s n f) {t : Ty} (ht : t ∈ Spans.fieldTypes f) :
    ∃ m, STy std s m t := by
  cases f with
  | named d =>
    obtain ⟨f, hf, rfl⟩ := List.mem_map.1 ht
    obtain ⟨i, hi⟩ := List.getElem?_of_mem hf
    obtain ⟨h1, h2⟩ := sNamed h hi
    have h3 := TypeAt.named (std := std) (s := s.erase) h.spec (map_getElem? (f := Spanned.NamedField.erase) hi)
    refine ⟨_, ?_, h1.ty, h3⟩
    simp only [visitNamedField, List.append_assoc] at h2
    have h4 := h2.right.right.left
    simpa [visitComment, Spanned.NamedField.erase] using h4
  | unnamed d =>
    obtain ⟨f, hf, rfl⟩ := List.mem_map.1 ht
    obtain ⟨i, hi⟩ := List.getElem?_of_mem hf
    obtain ⟨h1, h2⟩ := sUnnamed h hi
    have h3 := TypeAt.unnamed (std := std) (s := s.erase) h.spec (map_getElem? (f := Spanned.UnnamedField.erase) hi)
    refine ⟨_, ?_, h1.ty, h3⟩
    simp only [visitUnnamedField] at h2
    exact h2.left
  | unit => cases ht

theorem sTy_alias {n : Nat} {a : Spanned.TypeAlias} (h : SDef std text s n (.typeAlias a)) : ∃ m, STy std s m a.target := by
  obtain ⟨g, f⟩ := h.ok.parts
  have h0 : DefAt std s.erase n (.typeAlias a.erase) := by simpa [Spanned.Definition.erase] using h.spec
  refine ⟨_, ?_, f, .alias h0⟩
  have h1 := h.at_
  simp only [visitDefinition, visitAlias, List.append_assoc] at h1
  have h2 := h1.right.right.right.right.left
  rw [g.2] at h2
  simpa [visitComment, paramTokens, Spanned.TypeAlias.erase] using h2

theorem sTy_const {n : Nat} {c : Spanned.Const} (h : SDef std text s n (.const c)) : ∃ m, STy std s m c.ty := by
  have h0 : DefAt std s.erase n (.const c.erase) := by simpa [Spanned.Definition.erase] using h.spec
  refine ⟨_, ?_, h.ok.parts, .const h0⟩
  have h1 := h.at_
  simp only [visitDefinition, visitConst, List.append_assoc] at h1
  have h2 := h1.right.right.left
  simpa [visitComment, Spanned.Const.erase] using h2

/-- The name of a definition among the calls. -/
theorem name_at {n : Nat} {d : Spanned.Definition} (h : SDef std text s n d) {name : Name} (hn : Spans.definitionName d = some name) :
    ∃ c : Call, c.span = name.span ∧ At (visitDefinitions s.definitions) (n + nameOffset d.erase) [c] := by
  have h1 := h.at_
  cases d with
  | module c k nm o ds cl =>
    cases hn
    simp only [visitDefinition, List.append_assoc] at h1
    have h2 := h1.right
    have h3 := At.mid (xs := [_]) (ys := [_]) (zs := _) h2
    exact ⟨_, rfl, by simpa [← Nat.add_assoc, visitComment, nameOffset, commentOf, Spanned.Definition.erase] using  h3⟩
  | struct st =>
    cases hn
    simp only [visitDefinition, visitStruct, List.append_assoc] at h1
    have h3 := At.mid (xs := [_]) (ys := [_]) (zs := _) h1.right
    exact ⟨_, rfl, by simpa [← Nat.add_assoc, visitComment, nameOffset, commentOf, Spanned.Definition.erase, Spanned.Struct.erase] using  h3⟩
  | enum e =>
    cases hn
    simp only [visitDefinition, visitEnum, List.append_assoc] at h1
    have h3 := At.mid (xs := [_]) (ys := [_]) (zs := _) h1.right
    exact ⟨_, rfl, by simpa [← Nat.add_assoc, visitComment, nameOffset, commentOf, Spanned.Definition.erase, Spanned.Enum.erase] using  h3⟩
  | typeAlias a =>
    cases hn
    simp only [visitDefinition, visitAlias, List.append_assoc] at h1
    have h3 := At.mid (xs := [_]) (ys := [_]) (zs := _) h1.right
    exact ⟨_, rfl, by simpa [← Nat.add_assoc, visitComment, nameOffset, commentOf, Spanned.Definition.erase, Spanned.TypeAlias.erase] using  h3⟩
  | const c =>
    cases hn
    simp only [visitDefinition, visitConst, List.append_assoc] at h1
    have h3 := At.mid (xs := [_]) (ys := [_]) (zs := _) h1.right
    exact ⟨_, rfl, by simpa [← Nat.add_assoc, visitComment, nameOffset, commentOf, Spanned.Definition.erase, Spanned.Const.erase] using  h3⟩
  | «import» i =>
    obtain ⟨k, segs, el, sc⟩ := i
    simp only [visitDefinition, visitImport, List.append_assoc] at h1
    cases el with
    | some e =>
      cases hn
      have h3 := At.mid (xs := [_]) (ys := [_]) (zs := []) h1.right.right
      refine ⟨⟨e.2.span, "type", []⟩, rfl, ?_⟩
      have e1 : nameOffset (Spanned.Definition.import ⟨k, segs, some e, sc⟩).erase = segs.length + 2 := by
        simp [nameOffset, Spanned.Definition.erase, Spanned.Import.erase]
      rw [e1]
      simp only [List.length_cons, List.length_nil, List.length_map] at h3
      rw [show n + (segs.length + 2) = n + (0 + 1) + segs.length + (0 + 1) by omega]
      exact h3
    | none =>
      have hn' : segs.getLast? = some name := hn
      obtain ⟨pre, rfl⟩ := List.getLast?_eq_some_iff.1 hn'
      rw [List.append_nil, List.map_append] at h1
      have h3 := h1.right.right
      refine ⟨⟨name.span, "namespace", []⟩, rfl, ?_⟩
      have e1 : nameOffset (Spanned.Definition.import ⟨k, pre ++ [name], none, sc⟩).erase = pre.length + 1 := by
        simp [nameOffset, Spanned.Definition.erase, Spanned.Import.erase]
      rw [e1]
      simp only [List.length_cons, List.length_nil, List.length_map] at h3
      rw [show n + (pre.length + 1) = n + (0 + 1) + pre.length by omega]
      exact h3

theorem withCommas_ones : ∀ (l : List String) (k : Nat), k ≤ l.length →
    withCommas ((l.take k).map fun g => [declared "typeParameter" g]) = 2 * k
  | _, 0, _ => rfl
  | [], k + 1, h => by simp at h
  | a :: l, k + 1, h => by
    have := withCommas_ones l k (by simpa using h)
    simp only [withCommas, List.take_succ_cons, List.map_cons, List.sum_cons, List.length_cons, List.length_nil] at this ⊢
    rw [this]; omega

/-- A type parameter of a struct or enum among the calls. -/
theorem param_at {n : Nat} {d : Spanned.Definition} (h : SDef std text s n d) {g : Delimited (Punctuated Name)}
    (hg : (∃ st, d = .struct st ∧ st.generics = some g) ∨ ∃ e, d = .enum e ∧ e.generics = some g) {i : Nat} {x : Name}
    (hx : g.inner.values[i]? = some x) :
    ∃ m, ParamAt std s.erase m d.erase i ∧ (typeParams d.erase)[i]? = some x.value ∧
      ∃ c : Call, c.span = x.span ∧ At (visitDefinitions s.definitions) m [c] := by
  have hi : i ≤ (g.inner.values.map Name.value).length := by
    have := (List.getElem?_eq_some_iff.1 hx).1
    simp; omega
  refine ⟨_, ⟨n, h.spec, rfl⟩, ?_, ⟨x.span, "typeParameter", ["declaration"]⟩, rfl, ?_⟩
  · rcases hg with ⟨st, rfl, hg⟩ | ⟨e, rfl, hg⟩ <;>
    · simp only [Spanned.Definition.erase, typeParams, Spanned.Struct.erase, Spanned.Enum.erase, hg, eraseGenerics, Punctuated.erase]
      exact map_getElem? hx
  · have key : ∀ k, ListOk (fun _ : Name => True) g.inner → At (visitDefinitions s.definitions) k (visitGenerics (some g)) →
        At (visitDefinitions s.definitions) (k + 2 * i) [⟨x.span, "typeParameter", ["declaration"]⟩] := by
      intro k hl ha
      have := (list_at (items := fun v : String => [declared "typeParameter" v]) (m := Name.value) hl
        (fun _ _ => rfl) ha hx).2
      rwa [withCommas_ones _ _ hi] at this
    have hp := h.ok.parts
    have h1 := h.at_
    rcases hg with ⟨st, rfl, hg⟩ | ⟨e, rfl, hg⟩
    · simp only [visitDefinition, visitStruct, List.append_assoc, hg] at h1
      have := key _ (hp.1.1 g hg) h1.right.right.left
      simpa [visitComment, commentOf, Spanned.Definition.erase, Spanned.Struct.erase] using this
    · simp only [visitDefinition, visitEnum, List.append_assoc, hg] at h1
      have := key _ (hp.1.1 g hg) h1.right.right.left
      simpa [visitComment, commentOf, Spanned.Definition.erase, Spanned.Enum.erase] using this
end

/-! ### The findings -/

section
variable {std : Std} {text : Text} {s : Spanned.Schema} {enc : Encoding} {position : Text → Nat → Option Position}
  (hp : PositionContract enc position) {focus : String → String} (h : Spanned.parseSchema std text = some s)
include hp h

/-- Where an id is reported. -/
theorem idAt_of {n : Nat} {body : List Call} {comment : List Name} {id : Option Id} {sp : Span} {items : List Item}
    (ha : At (visitDefinitions s.definitions) n (visitComment comment ++ body)) (hb : ∃ X, body = X ++ visitId id)
    (hs : SpanOk text body sp) (hl : (visitComment comment ++ body).length = items.length) :
    ∃ r, expectRange (position text) text (Spans.idSpan id sp) = .ok r ∧
      IdAt enc text (placesOf text s) n items (comment.map Name.value) (id.map Id.value) r := by
  have hC := allIn_schema h
  cases id with
  | some id =>
    obtain ⟨X, rfl⟩ := hb
    rw [← List.append_assoc] at ha hl
    obtain ⟨r, h1, h2⟩ := covers_one hp hC (c := ⟨id.span, "identifier", []⟩) ha.right
    refine ⟨r, h1, ?_⟩
    simp only [IdAt, Option.map_some, Option.isSome_some, if_true]
    simp only [visitId, List.length_append, List.length_cons, List.length_nil] at hl h2
    rw [← hl, show n + ((visitComment comment).length + X.length + (0 + 1)) - 1 = n + ((visitComment comment).length + X.length) by omega]
    exact h2
  | none =>
    obtain ⟨r, h1, h2⟩ := surrounds_span hp hC ha.right hs
    refine ⟨r, h1, ?_⟩
    simp only [IdAt, Option.map_none, Option.isSome_none, Bool.false_eq_true, if_false]
    rw [← hl, List.length_append, length_comment, Nat.add_sub_cancel_left, ← length_comment]
    exact h2

/-- The error is a complaint with the right ranges. -/
def Reported (std : Std) (text : Text) (s : Spanned.Schema) (enc : Encoding) (position : Text → Nat → Option Position) (focus : String → String)
    (f : Finding) : Prop :=
  ∃ range, expectRange (position text) text f.second = .ok range ∧
    match f.first with
    | none => Complaint enc std focus s.erase text (placesOf text s) (errorMessage focus f.error) range none
    | some first => ∃ r, expectRange (position text) text first = .ok r ∧
        Complaint enc std focus s.erase text (placesOf text s) (errorMessage focus f.error) range (some r)

theorem reported_ids {n : Nat} {f : Spanned.Fields} (hf : SFields std text s n f) {checked : Bool} {e : Finding}
    (he : Spans.validateFieldIds checked f = .err e) : Reported std text s enc position focus e := by
  cases f with
  | unit => cases he
  | named d =>
    simp only [Spans.validateFieldIds, Spans.namedIds_scan _ _ 0] at he
    rcases Spans.idScan_err he with ⟨_, _, _, he⟩ | ⟨i, j, a, b, id, ha, hb, rfl, hc⟩
    · cases he
    · obtain ⟨a1, a2⟩ := sNamed hf ha
      obtain ⟨b1, b2⟩ := sNamed hf hb
      have a3 := a1.len; have b3 := b1.len
      rw [visitNamedField_eq] at a2 b2 a3 b3
      obtain ⟨r1, r2, r3⟩ := idAt_of hp h a2 ⟨_ :: _ :: visitType a.ty, rfl⟩ a1.span a3
      obtain ⟨q1, q2, q3⟩ := idAt_of hp h b2 ⟨_ :: _ :: visitType b.ty, rfl⟩ b1.span b3
      refine ⟨r1, r2, q1, q2, ?_⟩
      have hc' : Clash (assignFrom 1 ((d.inner.values.map Spanned.NamedField.erase).map (·.id))) i j id := by
        rw [List.map_map]; exact hc
      have goal := Complaint.namedId (enc := enc) (std := std) (focus := focus) (s := s.erase) (text := text) (places := placesOf text s)
        (f := a.erase) (g := b.erase) (id := id)
        hf.spec (assigned_assignFrom _) hc' (map_getElem? ha) (map_getElem? hb) r3 q3
      exact goal
  | unnamed d =>
    simp only [Spans.validateFieldIds, Spans.unnamedIds_scan _ _ 0] at he
    rcases Spans.idScan_err he with ⟨_, _, _, he⟩ | ⟨i, j, a, b, id, ha, hb, rfl, hc⟩
    · cases he
    · obtain ⟨a1, a2⟩ := sUnnamed hf ha
      obtain ⟨b1, b2⟩ := sUnnamed hf hb
      obtain ⟨r1, r2, r3⟩ := idAt_of hp h (comment := []) a2 ⟨_, rfl⟩ a1.span a1.len
      obtain ⟨q1, q2, q3⟩ := idAt_of hp h (comment := []) b2 ⟨_, rfl⟩ b1.span b1.len
      refine ⟨r1, r2, q1, q2, ?_⟩
      have hc' : Clash (assignFrom 1 ((d.inner.values.map Spanned.UnnamedField.erase).map (·.id))) i j id := by
        rw [List.map_map]; exact hc
      have goal := Complaint.unnamedId (enc := enc) (std := std) (focus := focus) (s := s.erase) (text := text) (places := placesOf text s)
        (f := a.erase) (g := b.erase) (id := id)
        hf.spec (assigned_assignFrom _) hc' (map_getElem? ha) (map_getElem? hb) r3 q3
      exact goal

theorem reported_variantIds {n : Nat} {d : Punctuated Spanned.Variant} (hv : SVariants std text s n d) {checked : Bool} {e : Finding}
    (he : Spans.variantIds checked Compiler.idStart [] d.values = .err e) : Reported std text s enc position focus e := by
  rw [Spans.variantIds_scan _ _ 0] at he
  rcases Spans.idScan_err he with ⟨i, a, ha, he⟩ | ⟨i, j, a, b, id, ha, hb, rfl, hc⟩
  · exact reported_ids hp h (sFields_variant hv ha) he
  · obtain ⟨a1, a2⟩ := sVariant hv ha
    obtain ⟨b1, b2⟩ := sVariant hv hb
    have a3 := a1.len; have b3 := b1.len
    rw [visitVariant_eq] at a2 b2 a3 b3
    obtain ⟨r1, r2, r3⟩ := idAt_of hp h a2 ⟨_ :: visitFields a.fields, rfl⟩ a1.span a3
    obtain ⟨q1, q2, q3⟩ := idAt_of hp h b2 ⟨_ :: visitFields b.fields, rfl⟩ b1.span b3
    refine ⟨r1, r2, q1, q2, ?_⟩
    have hc' : Clash (assignFrom 1 ((d.values.map Spanned.Variant.erase).map (·.id))) i j id := by
      rw [List.map_map]; exact hc
    have goal := Complaint.variantId (enc := enc) (std := std) (focus := focus) (s := s.erase) (text := text) (places := placesOf text s)
      (v := a.erase) (w := b.erase) (id := id)
      hv.spec (assigned_assignFrom _) hc' (map_getElem? ha) (map_getElem? hb) r3 q3
    exact goal

theorem reported_fieldNames {n : Nat} {f : Spanned.Fields} (hf : SFields std text s n f) {e : Finding}
    (he : Spans.validateFieldNames f = .err e) : Reported std text s enc position focus e := by
  have hC := allIn_schema h
  cases f with
  | unit => cases he
  | unnamed d => cases he
  | named d =>
    simp only [Spans.validateFieldNames, Spans.fieldNames_scan] at he
    rcases Spans.nameScan_err he with ⟨_, _, _, he⟩ | ⟨i, j, a, b, ha, hb, rfl, hc⟩
    · cases he
    · obtain ⟨a1, a2⟩ := sNamed hf ha
      obtain ⟨b1, b2⟩ := sNamed hf hb
      rw [visitNamedField_eq] at a2 b2
      obtain ⟨r1, r2, r3⟩ := covers_one hp hC (c := ⟨a.name.span, "property", ["declaration"]⟩)
        (At.left (ys := ⟨a.colon, "colon", []⟩ :: (visitType a.ty ++ visitId a.id)) a2.right)
      obtain ⟨q1, q2, q3⟩ := covers_one hp hC (c := ⟨b.name.span, "property", ["declaration"]⟩)
        (At.left (ys := ⟨b.colon, "colon", []⟩ :: (visitType b.ty ++ visitId b.id)) b2.right)
      rw [length_comment] at r3 q3
      refine ⟨r1, r2, q1, q2, ?_⟩
      refine Complaint.fieldName hf.spec ?_ (map_getElem? ha) (map_getElem? hb) r3 q3
      rw [List.map_map]; exact hc

theorem reported_variantNames {n : Nat} {d : Punctuated Spanned.Variant} (hv : SVariants std text s n d) {e : Finding}
    (he : Spans.variantNames [] d.values = .err e) : Reported std text s enc position focus e := by
  have hC := allIn_schema h
  rw [Spans.variantNames_scan] at he
  rcases Spans.nameScan_err he with ⟨i, a, ha, he⟩ | ⟨i, j, a, b, ha, hb, rfl, hc⟩
  · exact reported_fieldNames hp h (sFields_variant hv ha) he
  · obtain ⟨a1, a2⟩ := sVariant hv ha
    obtain ⟨b1, b2⟩ := sVariant hv hb
    rw [visitVariant_eq] at a2 b2
    obtain ⟨r1, r2, r3⟩ := covers_one hp hC (c := ⟨a.name.span, "enumMember", ["declaration"]⟩)
      (At.left (ys := visitFields a.fields ++ visitId a.id) a2.right)
    obtain ⟨q1, q2, q3⟩ := covers_one hp hC (c := ⟨b.name.span, "enumMember", ["declaration"]⟩)
      (At.left (ys := visitFields b.fields ++ visitId b.id) b2.right)
    rw [length_comment] at r3 q3
    refine ⟨r1, r2, q1, q2, ?_⟩
    refine Complaint.variantName hv.spec ?_ (map_getElem? ha) (map_getElem? hb) r3 q3
    rw [List.map_map]; exact hc

theorem reported_moduleNames {n : Nat} {ds : List Spanned.Definition} (hs : SScope std text s n ds) {e : Finding}
    (he : Spans.moduleNames [] ds = .err e) : Reported std text s enc position focus e := by
  have hC := allIn_schema h
  obtain ⟨i, j, d, d', nm, nm', h1, h2, h3, h4, h5, h6, h7, rfl⟩ :=
    Spans.moduleNames_err ds [] [] (fun _ _ h => nomatch h) (fun _ h => nomatch h) List.nodup_nil he
  simp only [List.nil_append] at h2 h3 h7
  obtain ⟨c, c1, c2⟩ := name_at (sDef hs h2) h4
  obtain ⟨c', c1', c2'⟩ := name_at (sDef hs h3) h5
  obtain ⟨r1, r2, r3⟩ := covers_one hp hC c2
  obtain ⟨q1, q2, q3⟩ := covers_one hp hC c2'
  rw [c1] at r2
  rw [c1'] at q2
  refine ⟨r1, r2, q1, q2, ?_⟩
  refine Complaint.definitionName hs.spec h1 (map_getElem? h2) (map_getElem? h3) ?_ ?_ ?_ r3 q3
  · rw [Spans.introduced_erase, h4]; rfl
  · rw [Spans.introduced_erase, h5, Option.map_some, h6]; rfl
  · rw [← List.map_take, List.flatMap_map]; exact h7

omit hp h in
theorem tupleText_of {n : Nat} {x : Compiler.TupleSize} : Compiler.tupleProblem n = some x → tupleText n = some (match x with
    | .empty => "zero elements" | .single => "a single element" | .tooLarge => "more than 12 elements") := by
  intro h3
  unfold Compiler.tupleProblem at h3
  unfold tupleText
  split at h3
  · cases h3; rename_i hc; rw [if_pos hc]
  split at h3
  · cases h3; rename_i hc hc'; rw [if_neg hc, if_pos hc']
  split at h3
  · cases h3; rename_i hc hc' hc''; rw [if_neg hc, if_neg hc', if_pos hc'']
  · cases h3

theorem reported_tuple {n : Nat} {t : Ty} (ht : STy std s n t) {e : Finding} (he : Spans.tupleSizes t = .err e) :
    Reported std text s enc position focus e := by
  have hC := allIn_schema h
  obtain ⟨x, h1, rfl⟩ := Compiler.mapErr_err.1 he
  obtain ⟨ts, tr, h2, h3⟩ := Compiler.tupleSizes_err _ _ h1
  obtain ⟨hl, _, _, ⟨⟨a, ha, _⟩, b, hb, _⟩, _⟩ := ht.ok
  obtain ⟨r1, r2, r3⟩ := covers_span hp hC ht.at_ ha hb
  rw [hl] at r3
  refine ⟨r1, ?_, ?_⟩
  · simp only [Spans.typeSpan, ha, hb]; exact r2
  · exact Complaint.tuple ht.spec h2 (tupleText_of h3) r3

theorem reported_fieldTuples {n : Nat} {f : Spanned.Fields} (hf : SFields std text s n f) {e : Finding}
    (he : Spans.validateFieldTuples f = .err e) : Reported std text s enc position focus e := by
  obtain ⟨t, ht, he⟩ := Compiler.tryForEach_fail (by simp) he
  obtain ⟨m, hm⟩ := sTy_field hf ht
  exact reported_tuple hp h hm he

/-- Type parameters. -/
theorem reported_generics {pick : List Name → Option Name} (hpick : ∀ l a, pick l = some a → a ∈ l) {n : Nat} {d : Spanned.Definition} (hd : SDef std text s n d)
    {g : Option (Delimited (Punctuated Name))} (hg : (∃ st, d = .struct st ∧ st.generics = g) ∨ ∃ e, d = .enum e ∧ e.generics = g)
    {mark : List Name → List Name} (hsub : ∀ u, ∀ x ∈ mark u, x ∈ u)
    (hused : ∀ u : List Name, ∀ x ∈ mark u, ¬ Used d.erase x.value) {e : Finding}
    (he : Spans.validateGenerics pick g mark = .err e) : Reported std text s enc position focus e := by
  have hC := allIn_schema h
  cases g with
  | none => cases he
  | some g =>
    rcases andThen_fail he (by simp) with he | ⟨_, he⟩
    · rw [Spans.duplicateGenerics_scan] at he
      rcases Spans.nameScan_err he with ⟨_, _, _, he⟩ | ⟨i, j, a, b, ha, hb, rfl, hc⟩
      · cases he
      · obtain ⟨m, m1, m2, c, c1, c2⟩ := param_at hd hg ha
        obtain ⟨m', m1', m2', c', c1', c2'⟩ := param_at hd hg hb
        obtain ⟨r1, r2, r3⟩ := covers_one hp hC c2
        obtain ⟨q1, q2, q3⟩ := covers_one hp hC c2'
        rw [c1] at r2
        rw [c1'] at q2
        refine ⟨r1, r2, q1, q2, ?_⟩
        refine Complaint.paramName m1 m1' ?_ r3 q3
        have : typeParams d.erase = g.inner.values.map Name.value := by
          rcases hg with ⟨st, rfl, hg⟩ | ⟨e, rfl, hg⟩ <;>
            simp [Spanned.Definition.erase, typeParams, Spanned.Struct.erase, Spanned.Enum.erase, hg, eraseGenerics, Punctuated.erase]
        rw [this]; exact hc
    · unfold Spans.unusedError at he
      cases hpk : pick (mark g.inner.values) with
      | none => rw [hpk] at he; cases he
      | some x =>
        rw [hpk] at he
        simp only [Compiler.Outcome.err.injEq] at he
        subst he
        have h1 := hpick _ _ hpk
        obtain ⟨i, hi⟩ := List.getElem?_of_mem (hsub _ x h1)
        obtain ⟨m, m1, m2, c, c1, c2⟩ := param_at hd hg hi
        obtain ⟨r1, r2, r3⟩ := covers_one hp hC c2
        rw [c1] at r2
        exact ⟨r1, r2, Complaint.paramUnused m1 m2 (hused _ x h1) r3⟩

variable {pick : List Name → Option Name} (hpick : ∀ l a, pick l = some a → a ∈ l)
include hpick

theorem reported_struct {n : Nat} {st : Spanned.Struct} (hd : SDef std text s n (.struct st)) {checked : Bool} {e : Finding}
    (he : Spans.validateStruct checked pick st = .err e) : Reported std text s enc position focus e := by
  have hf := sFields_struct hd
  rcases andThen_fail he (by simp) with he | ⟨_, he⟩
  · exact reported_ids hp h hf he
  rcases andThen_fail he (by simp) with he | ⟨_, he⟩
  · exact reported_fieldNames hp h hf he
  rcases andThen_fail he (by simp) with he | ⟨_, he⟩
  · refine reported_generics hp h hpick hd (.inl ⟨st, rfl, rfl⟩) (Spans.fieldGenerics_sub st.fields) (fun u x hx => ?_) he
    simp only [Spanned.Definition.erase]
    rw [Compiler.used_struct]
    have : x.value ∈ (Spans.fieldGenerics st.fields u).map (·.value) := List.mem_map.2 ⟨x, hx, rfl⟩
    rw [Spans.fieldGenerics_map, Compiler.fieldGenerics_mem] at this
    exact this.2
  · exact reported_fieldTuples hp h hf he

theorem reported_enum {n : Nat} {en : Spanned.Enum} (hd : SDef std text s n (.enum en)) {checked : Bool} {e : Finding}
    (he : Spans.validateEnum checked pick en = .err e) : Reported std text s enc position focus e := by
  have hv := sVariants hd
  rcases andThen_fail he (by simp) with he | ⟨_, he⟩
  · exact reported_variantIds hp h hv he
  rcases andThen_fail he (by simp) with he | ⟨_, he⟩
  · exact reported_variantNames hp h hv he
  rcases andThen_fail he (by simp) with he | ⟨_, he⟩
  · refine reported_generics hp h hpick hd (.inr ⟨en, rfl, rfl⟩) (Spans.variantGenerics_sub en.variants.inner.values) (fun u x hx => ?_) he
    simp only [Spanned.Definition.erase]
    rw [Compiler.used_enum]
    have : x.value ∈ (en.variants.inner.values.foldl (fun u v => Spans.fieldGenerics v.fields u) u).map (·.value) :=
      List.mem_map.2 ⟨x, hx, rfl⟩
    rw [Spans.variantGenerics_map, Compiler.foldl_variants] at this
    rintro ⟨v, hv, hm⟩
    exact this.2 v hv hm
  · obtain ⟨v, hm, he⟩ := Compiler.tryForEach_fail (by simp) he
    obtain ⟨i, hi⟩ := List.getElem?_of_mem hm
    exact reported_fieldTuples hp h (sFields_variant hv hi) he

mutual
theorem reported_definition {checked : Bool} {e : Finding} : ∀ (d : Spanned.Definition) {n : Nat}, SDef std text s n d →
    Spans.validateDefinition checked pick d = .err e → Reported std text s enc position focus e
  | .module c k nm o ds cl, n, hd, he => by
    simp only [Spans.validateDefinition] at he
    rcases andThen_fail he (by simp) with he | ⟨_, he⟩
    · exact reported_moduleNames hp h (sScope_inner hd) he
    · exact reported_definitions ds (fun i d hi => ⟨_, sDef (sScope_inner hd) hi⟩) he
  | .struct st, n, hd, he => by
    simp only [Spans.validateDefinition] at he
    exact reported_struct hp h hpick hd he
  | .enum st, n, hd, he => by
    simp only [Spans.validateDefinition] at he
    exact reported_enum hp h hpick hd he
  | .typeAlias a, n, hd, he => by
    simp only [Spans.validateDefinition] at he
    obtain ⟨m, hm⟩ := sTy_alias hd
    exact reported_tuple hp h hm he
  | .const c, n, hd, he => by
    simp only [Spans.validateDefinition] at he
    obtain ⟨m, hm⟩ := sTy_const hd
    exact reported_tuple hp h hm he
  | .import i, n, hd, he => by
    simp only [Spans.validateDefinition] at he
    cases he
theorem reported_definitions {checked : Bool} {e : Finding} : ∀ (ds : List Spanned.Definition),
    (∀ (i : Nat) (d : Spanned.Definition), ds[i]? = some d → ∃ n, SDef std text s n d) →
    Spans.validateDefinitions checked pick ds = .err e → Reported std text s enc position focus e
  | [], _, he => by simp only [Spans.validateDefinitions] at he; cases he
  | d :: ds, hd, he => by
    simp only [Spans.validateDefinitions] at he
    rcases andThen_fail he (by simp) with he | ⟨_, he⟩
    · obtain ⟨n, hn⟩ := hd 0 d rfl
      exact reported_definition d hn he
    · exact reported_definitions ds (fun i x hi => hd (i + 1) x (by simpa using hi)) he
end

theorem reported_schema {checked : Bool} {e : Finding} (he : Spans.validateSchema checked pick s = .err e) :
    Reported std text s enc position focus e := by
  have hs := sScope_root h
  rcases andThen_fail he (by simp) with he | ⟨_, he⟩
  · exact reported_moduleNames hp h hs he
  · exact reported_definitions hp h hpick s.definitions (fun i d hi => ⟨_, sDef hs hi⟩) he

end

end Mabo.Lsp
