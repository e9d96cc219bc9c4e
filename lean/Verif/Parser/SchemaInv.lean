import Verif.Parser.SchemaDefs
/-! Whatever the schema parser accepts is well-formed. -/
namespace Mabo.Parse
open Mabo.Ast Mabo.Spec

theorem separated1_forall {α β : Type} {p : P α} {sep : P β} {Q : α → Prop} (hp : ∀ s a r, p s = .ok a r → Q a) {s : Text}
    {as : List α} {r : Text} (h : separated1 p sep s = .ok as r) : as ≠ [] ∧ ∀ a ∈ as, Q a := by
  unfold separated1 at h
  obtain ⟨a, m, h1, h⟩ := bind_eq_ok h
  obtain ⟨as', m', h2, h⟩ := bind_eq_ok h
  obtain ⟨rfl, _⟩ := pure_eq_ok h
  refine ⟨by simp, fun b hb => ?_⟩
  rcases List.mem_cons.1 hb with rfl | hb
  · exact hp _ _ _ h1
  · refine many_forall (Q := Q) (fun s a r h => ?_) h2 b hb
    obtain ⟨_, _, _, h⟩ := bind_eq_ok h
    exact hp _ _ _ h

theorem sp_inv {α : Type} {p : P α} {Q : α → Prop} (hp : ∀ s a r, p s = .ok a r → Q a) {s : Text} {a : α} {r : Text}
    (h : sp p s = .ok a r) : Q a := by rw [sp_run] at h; exact hp _ _ _ h

theorem ws_inv {α : Type} {p : P α} {Q : α → Prop} (hp : ∀ s a r, p s = .ok a r → Q a) {s : Text} {a : α} {r : Text}
    (h : ws p s = .ok a r) : Q a := by rw [ws_run] at h; exact hp _ _ _ h

theorem surround_inv {α : Type} {o c : Char} {p : P α} {Q : α → Prop} (hp : ∀ s a r, p s = .ok a r → Q a) {s : Text} {a : α}
    {r : Text} (h : surround o c p s = .ok a r) : Q a := by
  obtain ⟨_, _, _, h, _⟩ := surround_eq_ok h
  exact hp _ _ _ h

theorem parseSegment_inv {s r : Text} {n : String} (h : parseSegment s = .ok n r) : SnakeName n :=
  (snakeName_iff n).2 (name_eq_ok h).2.1

theorem parseCamel_inv {s r : Text} {n : String} (h : parseCamel s = .ok n r) : CamelName n :=
  (camelName_iff n).2 (name_eq_ok h).2.1

/-! ### Comments and attributes -/

theorem commentLine_inv {s r : Text} {l : String} (h : commentLine s = .ok l r) :
    '\n' ∉ l.toList ∧ l.toList.head? ≠ some ' ' ∧ l.toList.head? ≠ some '\t' := by
  unfold commentLine at h
  obtain ⟨_, _, _, h⟩ := bind_eq_ok h
  obtain ⟨_, _, _, h⟩ := bind_eq_ok h
  obtain ⟨_, m, h1, h⟩ := bind_eq_ok h
  obtain ⟨v, m', h2, h⟩ := bind_eq_ok h
  obtain ⟨_, _, _, h⟩ := bind_eq_ok h
  obtain ⟨rfl, _⟩ := pure_eq_ok h
  obtain ⟨_, _, hst, _⟩ := takeWhile_eq_ok h1
  obtain ⟨e, hv, _, _⟩ := takeWhile_eq_ok h2
  rw [String.toList_ofList]
  refine ⟨fun hn => absurd (hv _ hn) (by decide), ?_, ?_⟩
  · intro hh
    have := hst ' ' (by rw [e]; cases v with | nil => cases hh | cons c cs => exact hh)
    exact absurd this (by decide)
  · intro hh
    have := hst '\t' (by rw [e]; cases v with | nil => cases hh | cons c cs => exact hh)
    exact absurd this (by decide)

theorem parseComments_inv {s r : Text} {ls : List String} (h : parseComments s = .ok ls r) : CommentWf ls :=
  many_forall (Q := fun l : String => '\n' ∉ l.toList ∧ l.toList.head? ≠ some ' ' ∧ l.toList.head? ≠ some '\t')
    (fun _ _ _ h => commentLine_inv h) h

/-- A well-formed attribute with literals in range. -/
def AttrGood (a : Attribute) : Prop := AttrWf a ∧ ∀ l ∈ attrLiterals a, LiteralValid l

theorem attrsGood {as : List Attribute} (h : ∀ a ∈ as, AttrGood a) :
    AttrsWf as ∧ ∀ l ∈ attrsLiterals as, LiteralValid l := by
  induction as with
  | nil => exact ⟨trivial, fun _ h => by cases h⟩
  | cons a as ih =>
    have ⟨h1, h2⟩ := ih fun b hb => h b (by simp [hb])
    have ⟨h3, h4⟩ := h a (by simp)
    rw [AttrsWf, attrsLiterals]
    exact ⟨⟨h3, h1⟩, fun l hl => (List.mem_append.1 hl).elim (h4 l) (h2 l)⟩

theorem attrList_inv {close : Char} {rec : P Attribute} (hrec : ∀ s a r, rec s = .ok a r → AttrGood a) {s r : Text}
    {as : List Attribute} (h : attrList close rec s = .ok as r) : as ≠ [] ∧ ∀ a ∈ as, AttrGood a := by
  unfold attrList at h
  obtain ⟨as', _, h1, h⟩ := bind_eq_ok h
  obtain ⟨_, _, _, h⟩ := bind_eq_ok h
  obtain ⟨_, _, _, h⟩ := bind_eq_ok h
  obtain ⟨rfl, _⟩ := pure_eq_ok h
  exact separated1_forall (fun _ _ _ h => ws_inv (Q := AttrGood) hrec h) h1

theorem attrBody_inv (std : Std) {rec : P Attribute} (hrec : ∀ s a r, rec s = .ok a r → AttrGood a) {s r : Text}
    {a : Attribute} (h : attrBody std rec s = .ok a r) : AttrGood a := by
  unfold attrBody at h
  obtain ⟨n, m, h1, h⟩ := bind_eq_ok h
  have hn := parseSegment_inv h1
  rcases alt_eq_ok h with h | ⟨_, h⟩
  · obtain ⟨_, _, _, h⟩ := bind_eq_ok h
    obtain ⟨as, _, h2, h⟩ := bind_eq_ok h
    obtain ⟨rfl, _⟩ := pure_eq_ok h
    have ⟨hne, hall⟩ := attrList_inv hrec (cutErr_ok.1 h2)
    have ⟨hw, hl⟩ := attrsGood hall
    refine ⟨?_, ?_⟩
    · rw [AttrWf]; exact ⟨hn, hne, hw⟩
    · rw [attrLiterals]; exact hl
  · rcases alt_eq_ok h with h | ⟨_, h⟩
    · unfold attrSingle at h
      obtain ⟨_, _, _, h⟩ := bind_eq_ok h
      obtain ⟨_, _, _, h⟩ := bind_eq_ok h
      obtain ⟨_, _, _, h⟩ := bind_eq_ok h
      obtain ⟨l, _, h2, h⟩ := bind_eq_ok h
      obtain ⟨rfl, _⟩ := pure_eq_ok h
      refine ⟨?_, ?_⟩
      · rw [AttrWf]; exact hn
      · rw [attrLiterals]
        intro l' hl'
        rw [List.mem_singleton.1 hl']
        exact parseLiteral_inv std h2
    · obtain ⟨rfl, _⟩ := pure_eq_ok h
      refine ⟨?_, ?_⟩
      · rw [AttrWf]; exact hn
      · rw [attrLiterals]; intro _ h; cases h

theorem attrDepth_inv (std : Std) : ∀ n s a r, attrDepth std n s = .ok a r → AttrGood a
  | 0, _, _, _, h => by cases h
  | n + 1, s, a, r, h => attrBody_inv std (attrDepth_inv std n) h

theorem parseAttributes_inv (std : Std) {s r : Text} {as : List Attribute} (h : parseAttributes std s = .ok as r) :
    AttrsWf as ∧ ∀ l ∈ attrsLiterals as, LiteralValid l := by
  unfold parseAttributes at h
  obtain ⟨ass, m, h1, h⟩ := bind_eq_ok h
  obtain ⟨rfl, _⟩ := pure_eq_ok h
  refine attrsGood fun a ha => ?_
  obtain ⟨as, has, ha⟩ := List.mem_flatten.1 ha
  refine many_forall (Q := fun as => ∀ a ∈ as, AttrGood a) (fun s as r h => ?_) h1 as has a ha
  obtain ⟨as', _, h2, h⟩ := bind_eq_ok h
  obtain ⟨_, _, _, h⟩ := bind_eq_ok h
  obtain ⟨rfl, _⟩ := pure_eq_ok h
  unfold parseAttribute at h2
  obtain ⟨_, _, _, h⟩ := bind_eq_ok h2
  obtain ⟨_, _, _, h⟩ := bind_eq_ok h
  exact (attrList_inv (fun s a r h => attrDepth_inv std _ s a r h) (cutErr_ok.1 h)).2

/-! ### Fields -/

theorem parseNamedField_inv {s r : Text} {f : NamedField} (h : parseNamedField s = .ok f r) : NamedFieldWf f := by
  unfold parseNamedField at h
  obtain ⟨c, _, h1, h⟩ := bind_eq_ok h
  obtain ⟨n, _, h2, h⟩ := bind_eq_ok h
  obtain ⟨_, _, _, h⟩ := bind_eq_ok h
  obtain ⟨t, _, h3, h⟩ := bind_eq_ok h
  obtain ⟨_, _, _, h⟩ := bind_eq_ok h
  obtain ⟨rfl, _⟩ := pure_eq_ok h
  exact ⟨ws_inv (Q := CommentWf) (fun _ _ _ => parseComments_inv) h1, sp_inv (fun _ _ _ => parseSegment_inv) h2,
    sp_inv (fun _ _ _ => parseType_inv) h3⟩

theorem parseUnnamedField_inv {s r : Text} {f : UnnamedField} (h : parseUnnamedField s = .ok f r) : TypeOk f.ty := by
  unfold parseUnnamedField at h
  obtain ⟨t, _, h3, h⟩ := bind_eq_ok h
  obtain ⟨_, _, _, h⟩ := bind_eq_ok h
  obtain ⟨rfl, _⟩ := pure_eq_ok h
  exact ws_inv (fun _ _ _ => parseType_inv) h3

theorem parseFields_inv {s r : Text} {fs : Fields} (h : parseFields s = .ok fs r) : FieldsWf fs := by
  unfold parseFields at h
  obtain ⟨c, m, _, h⟩ := bind_eq_ok h
  split at h
  · obtain ⟨⟨fs', t⟩, _, h1, h⟩ := bind_eq_ok h
    obtain ⟨rfl, _⟩ := pure_eq_ok h
    obtain ⟨_, _, _, h1, _⟩ := surround_eq_ok h1
    exact commaList_forall (Q := NamedFieldWf) (fun _ _ _ => parseNamedField_inv) h1
  split at h
  · obtain ⟨⟨fs', t⟩, _, h1, h⟩ := bind_eq_ok h
    obtain ⟨rfl, _⟩ := pure_eq_ok h
    obtain ⟨_, _, _, h1, _⟩ := surround_eq_ok h1
    exact commaList_forall (Q := fun f => TypeOk f.ty) (fun _ _ _ => parseUnnamedField_inv) h1
  · obtain ⟨rfl, _⟩ := pure_eq_ok h
    trivial

theorem parseGenerics_inv {s r : Text} {g : List String × Bool} (h : parseGenerics s = .ok g r) :
    TypeParamsWf g.1 g.2 := by
  unfold parseGenerics at h
  obtain ⟨o, m, h1, h⟩ := bind_eq_ok h
  obtain ⟨rfl, _⟩ := pure_eq_ok h
  rcases opt_eq_ok h1 with ⟨a, rfl, h2⟩ | ⟨rfl, _, _⟩
  · obtain ⟨_, _, _, h2, _⟩ := surround_eq_ok h2
    have ⟨h3, h4⟩ := commaList_forall (Q := CamelName) (fun _ _ _ h => ws_inv (fun _ _ _ => parseCamel_inv) h) h2
    exact ⟨h4, fun e => absurd e h3⟩
  · exact ⟨fun _ h => (nomatch h), fun _ => rfl⟩

theorem parseVariant_inv {s r : Text} {v : Variant} (h : parseVariant s = .ok v r) : VariantWf v := by
  unfold parseVariant at h
  obtain ⟨c, _, h1, h⟩ := bind_eq_ok h
  obtain ⟨n, _, h2, h⟩ := bind_eq_ok h
  obtain ⟨f, _, h3, h⟩ := bind_eq_ok h
  obtain ⟨_, _, _, h⟩ := bind_eq_ok h
  obtain ⟨rfl, _⟩ := pure_eq_ok h
  exact ⟨ws_inv (Q := CommentWf) (fun _ _ _ => parseComments_inv) h1, sp_inv (fun _ _ _ => parseCamel_inv) h2,
    sp_inv (fun _ _ _ => parseFields_inv) h3⟩

/-! ### Definitions -/

/-- A well-formed definition with literals in range. -/
def DefGood (d : Definition) : Prop := DefWf d ∧ ∀ l ∈ defLiterals d, LiteralValid l

theorem defsGood {ds : List Definition} (h : ∀ d ∈ ds, DefGood d) :
    DefsWf ds ∧ ∀ l ∈ defsLiterals ds, LiteralValid l := by
  induction ds with
  | nil => exact ⟨trivial, fun _ h => by cases h⟩
  | cons a as ih =>
    have ⟨h1, h2⟩ := ih fun b hb => h b (by simp [hb])
    have ⟨h3, h4⟩ := h a (by simp)
    rw [DefsWf, defsLiterals]
    exact ⟨⟨h3, h1⟩, fun l hl => (List.mem_append.1 hl).elim (h4 l) (h2 l)⟩

theorem nil_comment : CommentWf [] := fun _ h => (nomatch h)

theorem parseStruct_inv {s r : Text} {x : Struct} (h : parseStruct s = .ok x r) : StructWf x ∧ x.attributes = [] := by
  unfold parseStruct at h
  obtain ⟨_, _, _, h⟩ := bind_eq_ok h
  obtain ⟨_, _, _, h⟩ := bind_eq_ok h
  obtain ⟨n, _, h1, h⟩ := bind_eq_ok (cutErr_ok.1 h)
  obtain ⟨g, _, h2, h⟩ := bind_eq_ok h
  obtain ⟨f, _, h3, h⟩ := bind_eq_ok h
  obtain ⟨rfl, _⟩ := pure_eq_ok h
  exact ⟨⟨nil_comment, trivial, parseCamel_inv h1, parseGenerics_inv h2, sp_inv (fun _ _ _ => parseFields_inv) h3⟩, rfl⟩

theorem parseEnum_inv {s r : Text} {x : Enum} (h : parseEnum s = .ok x r) : EnumWf x ∧ x.attributes = [] := by
  unfold parseEnum at h
  obtain ⟨_, _, _, h⟩ := bind_eq_ok h
  obtain ⟨_, _, _, h⟩ := bind_eq_ok h
  obtain ⟨n, _, h1, h⟩ := bind_eq_ok (cutErr_ok.1 h)
  obtain ⟨g, _, h2, h⟩ := bind_eq_ok h
  obtain ⟨vs, _, h3, h⟩ := bind_eq_ok h
  obtain ⟨rfl, _⟩ := pure_eq_ok h
  have hv : vs.1 ≠ [] ∧ ∀ v ∈ vs.1, VariantWf v := by
    refine sp_inv (Q := fun vs : List Variant × Bool => vs.1 ≠ [] ∧ ∀ v ∈ vs.1, VariantWf v) (fun s a r h => ?_) h3
    obtain ⟨_, _, _, h, _⟩ := surround_eq_ok h
    exact commaList_forall (Q := VariantWf) (fun _ _ _ => parseVariant_inv) (t := a.2) h
  exact ⟨⟨nil_comment, trivial, parseCamel_inv h1, parseGenerics_inv h2, hv.1, hv.2⟩, rfl⟩

theorem parseAlias_inv {s r : Text} {x : TypeAlias} (h : parseAlias s = .ok x r) : AliasWf x := by
  unfold parseAlias at h
  obtain ⟨_, _, _, h⟩ := bind_eq_ok h
  obtain ⟨_, _, _, h⟩ := bind_eq_ok h
  obtain ⟨n, _, h1, h⟩ := bind_eq_ok (cutErr_ok.1 h)
  obtain ⟨g, _, h2, h⟩ := bind_eq_ok h
  obtain ⟨_, _, _, h⟩ := bind_eq_ok h
  obtain ⟨t, _, h3, h⟩ := bind_eq_ok h
  obtain ⟨_, _, _, h⟩ := bind_eq_ok h
  obtain ⟨rfl, _⟩ := pure_eq_ok h
  exact ⟨nil_comment, parseCamel_inv h1, parseGenerics_inv h2, sp_inv (fun _ _ _ => parseType_inv) h3⟩

theorem parseConst_inv (std : Std) {s r : Text} {x : Const} (h : parseConst std s = .ok x r) :
    ConstWf x ∧ LiteralValid x.value := by
  unfold parseConst at h
  obtain ⟨_, _, _, h⟩ := bind_eq_ok h
  obtain ⟨_, _, _, h⟩ := bind_eq_ok h
  obtain ⟨n, _, h1, h⟩ := bind_eq_ok (cutErr_ok.1 h)
  obtain ⟨_, _, _, h⟩ := bind_eq_ok h
  obtain ⟨t, _, h3, h⟩ := bind_eq_ok h
  obtain ⟨_, _, _, h⟩ := bind_eq_ok h
  obtain ⟨v, _, h4, h⟩ := bind_eq_ok h
  obtain ⟨_, _, _, h⟩ := bind_eq_ok h
  obtain ⟨rfl, _⟩ := pure_eq_ok h
  exact ⟨⟨nil_comment, (upperName_iff _).2 (name_eq_ok h1).2.1, sp_inv (fun _ _ _ => parseType_inv) h3⟩,
    sp_inv (fun _ _ _ => parseLiteral_inv std) h4⟩

theorem parseImport_inv {s r : Text} {x : Import} (h : parseImport s = .ok x r) : ImportWf x := by
  unfold parseImport at h
  obtain ⟨_, _, _, h⟩ := bind_eq_ok h
  obtain ⟨_, _, _, h⟩ := bind_eq_ok h
  obtain ⟨ss, _, h1, h⟩ := bind_eq_ok (cutErr_ok.1 h)
  obtain ⟨o, _, h2, h⟩ := bind_eq_ok h
  obtain ⟨_, _, _, h⟩ := bind_eq_ok h
  obtain ⟨rfl, _⟩ := pure_eq_ok h
  have ⟨h3, h4⟩ := separated1_forall (Q := SnakeName) (fun _ _ _ => parseSegment_inv) h1
  refine ⟨h3, h4, fun e he => ?_⟩
  rcases opt_eq_ok h2 with ⟨a, rfl, h5⟩ | ⟨rfl, _, _⟩
  · cases he
    obtain ⟨_, _, _, h5⟩ := bind_eq_ok h5
    rcases alt_eq_ok h5 with h5 | ⟨_, h5⟩ <;> exact parseCamel_inv h5
  · cases he

/-- A definition as its own parser leaves it: without comment and attributes. -/
def BareGood (d : Definition) : Prop := DefGood d ∧
  match d with
  | .struct s => s.attributes = []
  | .enum e => e.attributes = []
  | _ => True

theorem defKind_inv (std : Std) {rec : P Definition} (hrec : ∀ s d r, rec s = .ok d r → DefGood d) {s r : Text}
    {d : Definition} (h : defKind std rec s = .ok d r) : BareGood d := by
  unfold defKind at h
  obtain ⟨c, m, _, h⟩ := bind_eq_ok h
  split at h
  · unfold parseModule at h
    obtain ⟨_, _, _, h⟩ := bind_eq_ok h
    obtain ⟨_, _, _, h⟩ := bind_eq_ok h
    obtain ⟨n, _, h1, h⟩ := bind_eq_ok (cutErr_ok.1 h)
    obtain ⟨ds, _, h2, h⟩ := bind_eq_ok h
    obtain ⟨rfl, _⟩ := pure_eq_ok h
    have hd : ∀ d ∈ ds, DefGood d := by
      refine sp_inv (Q := fun ds : List Definition => ∀ d ∈ ds, DefGood d) (fun s a r h => ?_) h2
      obtain ⟨_, _, _, h, _⟩ := surround_eq_ok h
      exact many_forall (Q := DefGood) (fun _ _ _ h => ws_inv (Q := DefGood) hrec h) h
    have ⟨hw, hl⟩ := defsGood hd
    refine ⟨⟨?_, ?_⟩, trivial⟩
    · rw [DefWf]; exact ⟨nil_comment, parseSegment_inv h1, hw⟩
    · rw [defLiterals]; exact hl
  split at h
  · obtain ⟨x, _, h1, h⟩ := bind_eq_ok h
    obtain ⟨rfl, _⟩ := pure_eq_ok h
    have ⟨hw, ha⟩ := parseStruct_inv h1
    refine ⟨⟨?_, ?_⟩, ha⟩
    · rw [DefWf]; exact hw
    · rw [defLiterals, ha]; intro _ h; cases h
  split at h
  · obtain ⟨x, _, h1, h⟩ := bind_eq_ok h
    obtain ⟨rfl, _⟩ := pure_eq_ok h
    have ⟨hw, ha⟩ := parseEnum_inv h1
    refine ⟨⟨?_, ?_⟩, ha⟩
    · rw [DefWf]; exact hw
    · rw [defLiterals, ha]; intro _ h; cases h
  split at h
  · obtain ⟨x, _, h1, h⟩ := bind_eq_ok h
    obtain ⟨rfl, _⟩ := pure_eq_ok h
    have ⟨hw, ha⟩ := parseConst_inv std h1
    refine ⟨⟨?_, ?_⟩, trivial⟩
    · rw [DefWf]; exact hw
    · rw [defLiterals]; intro l hl; rw [List.mem_singleton.1 hl]; exact ha
  split at h
  · obtain ⟨x, _, h1, h⟩ := bind_eq_ok h
    obtain ⟨rfl, _⟩ := pure_eq_ok h
    refine ⟨⟨?_, ?_⟩, trivial⟩
    · rw [DefWf]; exact parseAlias_inv h1
    · rw [defLiterals]; intro _ h; cases h
  split at h
  · obtain ⟨x, _, h1, h⟩ := bind_eq_ok h
    obtain ⟨rfl, _⟩ := pure_eq_ok h
    refine ⟨⟨?_, ?_⟩, trivial⟩
    · rw [DefWf]; exact parseImport_inv h1
    · rw [defLiterals]; intro _ h; cases h
  · cases h

theorem withs_good {d : Definition} (h : BareGood d) {com : List String} (hc : CommentWf com) {as : List Attribute}
    (ha : AttrsWf as ∧ ∀ l ∈ attrsLiterals as, LiteralValid l) : DefGood (withAttributes (withComment d com) as) := by
  obtain ⟨⟨hw, hl⟩, hb⟩ := h
  cases d with
  | module c n ds =>
    refine ⟨?_, hl⟩
    rw [DefWf] at hw
    show DefWf (.module com n ds)
    rw [DefWf]; exact ⟨hc, hw.2⟩
  | struct s =>
    rw [DefWf] at hw
    refine ⟨?_, ?_⟩
    · show DefWf (.struct _)
      rw [DefWf]; exact ⟨hc, ha.1, hw.2.2⟩
    · show ∀ l ∈ defLiterals (.struct _), _
      rw [defLiterals]; exact ha.2
  | enum s =>
    rw [DefWf] at hw
    refine ⟨?_, ?_⟩
    · show DefWf (.enum _)
      rw [DefWf]; exact ⟨hc, ha.1, hw.2.2⟩
    · show ∀ l ∈ defLiterals (.enum _), _
      rw [defLiterals]; exact ha.2
  | typeAlias a =>
    rw [DefWf] at hw
    refine ⟨?_, hl⟩
    show DefWf (.typeAlias _)
    rw [DefWf]; exact ⟨hc, hw.2⟩
  | const c =>
    rw [DefWf] at hw
    refine ⟨?_, hl⟩
    show DefWf (.const _)
    rw [DefWf]; exact ⟨hc, hw.2⟩
  | «import» i => exact ⟨hw, hl⟩

theorem defBody_inv (std : Std) {rec : P Definition} (hrec : ∀ s d r, rec s = .ok d r → DefGood d) {s r : Text}
    {d : Definition} (h : defBody std rec s = .ok d r) : DefGood d := by
  unfold defBody at h
  obtain ⟨c, _, h1, h⟩ := bind_eq_ok h
  obtain ⟨as, _, h2, h⟩ := bind_eq_ok h
  obtain ⟨k, _, h3, h⟩ := bind_eq_ok h
  obtain ⟨rfl, _⟩ := pure_eq_ok h
  exact withs_good (sp_inv (Q := BareGood) (fun _ _ _ => defKind_inv std hrec) h3)
    (ws_inv (Q := CommentWf) (fun _ _ _ => parseComments_inv) h1)
    (ws_inv (Q := fun as => AttrsWf as ∧ ∀ l ∈ attrsLiterals as, LiteralValid l) (fun _ _ _ => parseAttributes_inv std) h2)

theorem defDepth_inv (std : Std) : ∀ n s d r, defDepth std n s = .ok d r → DefGood d
  | 0, _, _, _, h => by cases h
  | n + 1, _, _, _, h => defBody_inv std (defDepth_inv std n) h

theorem parseSchema_inv (std : Std) {text : Text} {s : Schema} (h : parseSchema std text = some s) :
    SchemaWf s ∧ ∀ l ∈ schemaLiterals s, LiteralValid l := by
  unfold parseSchema at h
  cases hp : schemaParser std text with
  | back => rw [hp] at h; cases h
  | cut => rw [hp] at h; cases h
  | ok a r =>
    rw [hp] at h
    cases r with
    | cons c r => cases h
    | nil =>
      injection h with h
      subst h
      unfold schemaParser at hp
      obtain ⟨o, _, h1, h⟩ := bind_eq_ok hp
      obtain ⟨ds, _, h2, h⟩ := bind_eq_ok h
      obtain ⟨_, _, _, h⟩ := bind_eq_ok h
      obtain ⟨rfl, _⟩ := pure_eq_ok h
      have ⟨hw, hl⟩ := defsGood (many_forall (Q := DefGood) (fun s d r h => defDepth_inv std _ s d r h) h2)
      refine ⟨⟨?_, hw⟩, hl⟩
      rcases opt_eq_ok h1 with ⟨c, rfl, h3⟩ | ⟨rfl, _, _⟩
      · obtain ⟨c', _, h4, h5⟩ := bind_eq_ok h3
        obtain ⟨_, _, _, h5⟩ := bind_eq_ok h5
        obtain ⟨rfl, _⟩ := pure_eq_ok h5
        exact ws_inv (Q := CommentWf) (fun _ _ _ => parseComments_inv) h4
      · exact nil_comment

end Mabo.Parse
