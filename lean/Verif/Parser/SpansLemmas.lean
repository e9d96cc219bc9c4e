import Verif.Parser.Spans
import Verif.Parser.CombLemmas
/-! Without its spans, the tree of `Parser/Spans.lean` is the one of `Parser/Schema.lean`. -/
namespace Mabo.Spanned
open Mabo.Parse

/-- Change the value of a result. -/
def mapRes {α β : Type} (h : α → β) : Res α → Res β
  | .ok a r => .ok (h a) r
  | .back => .back
  | .cut => .cut

/-- `q` is `p` with its values changed by `h`. -/
def Er {α β : Type} (h : α → β) (p : P α) (q : P β) : Prop := ∀ s, mapRes h (p s) = q s

theorem er_refl {α : Type} (p : P α) : Er (fun a => a) p p := fun s => by cases h : p s <;> rfl

theorem er_bind {α β γ δ : Type} {h : α → β} {k : γ → δ} {p : P α} {q : P β} {f : α → P γ} {g : β → P δ}
    (hp : Er h p q) (hf : ∀ a, Er k (f a) (g (h a))) : Er k (p >>= f) (q >>= g) := fun s => by
  have := hp s
  rw [bind_run, bind_run, ← this]
  cases hps : p s with
  | ok a r => exact hf a r
  | back => rfl
  | cut => rfl

theorem er_pure {α β : Type} {h : α → β} {a : α} {b : β} (e : h a = b) : Er h (pure a) (pure b) := fun s => by
  rw [← e]; rfl

theorem er_fail {α β : Type} {h : α → β} : Er h (fail : P α) (fail : P β) := fun _ => rfl

/-- Both parsers and both changes may be written differently. -/
theorem er_map {α β γ : Type} {h : α → β} {k : β → γ} {p : P α} {q : P β} (hp : Er h p q) :
    Er (fun a => k (h a)) p (do let b ← q; pure (k b)) := fun s => by
  rw [bind_run, ← hp s]; cases p s <;> rfl

theorem er_withSpan {α β : Type} {h : α → β} {p : P α} {q : P β} (hp : Er h p q) :
    Er (fun x => h x.1) (withSpan p) q := fun s => by
  rw [← hp s, withSpan]; cases p s <;> rfl

theorem er_spanMap {α β γ : Type} {h : α → β} {p : P α} {q : P β} (hp : Er h p q) (k : α × Span → γ) (e : γ → β)
    (he : ∀ a sp, e (k (a, sp)) = h a) : Er e (withSpan p >>= fun x => pure (k x)) q := fun s => by
  rw [bind_run, ← hp s, withSpan]
  cases p s with
  | ok a r => simp only [pure_run, mapRes, he]
  | back => rfl
  | cut => rfl

theorem er_span (p : P Unit) : Er (fun _ => ()) (span p) p := fun s => by
  show mapRes _ ((withSpan p >>= fun x => pure x.2) s) = _
  rw [bind_run, withSpan]; cases p s <;> rfl

theorem er_named (p : P String) : Er Name.value (named p) p := fun s => by
  show mapRes _ ((withSpan p >>= fun x => pure (Name.mk x.1 x.2)) s) = _
  rw [bind_run, withSpan]; cases p s <;> rfl

theorem er_cutErr {α β : Type} {h : α → β} {p : P α} {q : P β} (hp : Er h p q) : Er h (cutErr p) (cutErr q) := fun s => by
  unfold cutErr; rw [← hp s]; cases p s <;> rfl

theorem er_opt {α β : Type} {h : α → β} {p : P α} {q : P β} (hp : Er h p q) : Er (Option.map h) (opt p) (opt q) :=
  fun s => by unfold opt; rw [← hp s]; cases p s <;> rfl

theorem er_alt {α β : Type} {h : α → β} {p p' : P α} {q q' : P β} (hp : Er h p q) (hp' : Er h p' q') :
    Er h (alt p p') (alt q q') := fun s => by
  unfold alt; rw [← hp s, ← hp' s]; cases p s <;> rfl

theorem er_sp {α β : Type} {h : α → β} {p : P α} {q : P β} (hp : Er h p q) : Er h (sp p) (sp q) := fun s => by
  rw [sp_run, sp_run]; exact hp _

theorem er_ws {α β : Type} {h : α → β} {p : P α} {q : P β} (hp : Er h p q) : Er h (ws p) (ws q) := fun s => by
  rw [ws_run, ws_run]; exact hp _

theorem er_manyAux {α β : Type} {h : α → β} {p : P α} {q : P β} (hp : Er h p q) : ∀ n s,
    mapRes (List.map h) (manyAux p n s) = manyAux q n s
  | 0, _ => rfl
  | n + 1, s => by
    rw [manyAux, manyAux, ← hp s]
    cases p s with
    | back => rfl
    | cut => rfl
    | ok a r =>
      simp only [mapRes]
      by_cases hl : r.length = s.length
      · rw [if_pos hl, if_pos hl]
      · rw [if_neg hl, if_neg hl, ← er_manyAux hp n r]
        cases manyAux p n r <;> rfl

theorem er_many {α β : Type} {h : α → β} {p : P α} {q : P β} (hp : Er h p q) : Er (List.map h) (many p) (many q) :=
  fun s => er_manyAux hp _ s

theorem er_many1 {α β : Type} {h : α → β} {p : P α} {q : P β} (hp : Er h p q) : Er (List.map h) (many1 p) (many1 q) :=
  er_bind hp fun _ => er_bind (er_many hp) fun _ => er_pure rfl

theorem er_separated1 {α β γ δ : Type} {h : α → β} {k : γ → δ} {p : P α} {q : P β} {p' : P γ} {q' : P δ} (hp : Er h p q)
    (hs : Er k p' q') : Er (List.map h) (separated1 p p') (separated1 q q') :=
  er_bind hp fun _ => er_bind (er_many (er_bind hs fun _ => hp)) fun _ => er_pure rfl

/-- Erasure of a list with separators. -/
def Punctuated.erase {α β : Type} (h : α → β) (p : Punctuated α) : List β × Bool := (p.values.map h, p.last.isSome)

theorem punctuateAux_eq {α : Type} (f : P (α × Span)) (g : P (α × Option Span)) (n : Nat) (acc : List (α × Span))
    (prev : Option (Text × List (α × Span))) (s : Text) : punctuateAux f g (n + 1) acc prev s =
    match f s with
    | .ok a r => if r.length = s.length then .cut else punctuateAux f g n (a :: acc) (some (s, acc)) r
    | .cut => .cut
    | .back =>
      match g s with
      | .ok (a, t) r => .ok ⟨(a :: acc.map (·.1)).reverse, (acc.map (·.2)).reverse, t⟩ r
      | .cut => .cut
      | .back =>
        match prev with
        | none => .back
        | some (s', acc') =>
          match g s' with
          | .ok (a, t) r => .ok ⟨(a :: acc'.map (·.1)).reverse, (acc'.map (·.2)).reverse, t⟩ r
          | .back => .back
          | .cut => .cut := by
  rfl

theorem er_punctuateAux {α β : Type} {h : α → β} {f : P (α × Span)} {g : P (α × Option Span)} {f' : P β} {g' : P (β × Bool)}
    (hf : Er (fun x => h x.1) f f') (hg : Er (fun x => (h x.1, x.2.isSome)) g g') : ∀ n acc prev s,
    mapRes (Punctuated.erase h) (punctuateAux f g n acc prev s) =
      Parse.punctuateAux f' g' n (acc.map fun x => h x.1) (prev.map fun x => (x.1, x.2.map fun x => h x.1)) s
  | 0, _, _, _ => rfl
  | n + 1, acc, prev, s => by
    rw [punctuateAux_eq, punctuateAux_succ, ← hf s, ← hg s]
    cases f s with
    | cut => rfl
    | ok a r =>
      simp only [mapRes]
      by_cases hl : r.length = s.length
      · rw [if_pos hl, if_pos hl]
      · rw [if_neg hl, if_neg hl]
        have := er_punctuateAux hf hg n (a :: acc) (some (s, acc)) r
        simp only [mapRes] at this
        exact this
    | back =>
      simp only [mapRes]
      cases g s with
      | cut => rfl
      | ok a r => simp [mapRes, Punctuated.erase, Function.comp_def]
      | back =>
        simp only [mapRes]
        cases prev with
        | none => rfl
        | some x =>
          obtain ⟨s', acc'⟩ := x
          simp only [Option.map]
          rw [← hg s']
          cases g s' with
          | cut => rfl
          | back => rfl
          | ok a r => simp [mapRes, Punctuated.erase, Function.comp_def]

theorem er_commaList {α β : Type} {h : α → β} {p : P α} {q : P β} (hp : Er h p q) :
    Er (Punctuated.erase h) (commaList p) (Parse.commaList q) := fun s => by
  refine er_punctuateAux (h := h) ?_ ?_ _ [] none s
  · exact er_bind hp fun _ => er_bind (er_ws (er_span _)) fun _ => er_pure rfl
  · exact er_bind hp fun _ => er_bind (er_opt (er_ws (er_span _))) fun o => er_pure (by cases o <;> rfl)

theorem er_surround {α β : Type} {h : α → β} {o c : Char} {p : P α} {q : P β} (hp : Er h p q) :
    Er (fun d : Delimited α => h d.inner) (surround o c p) (Parse.surround o c q) :=
  er_bind (er_span _) fun _ => er_cutErr (er_bind hp fun _ => er_bind (er_ws (er_span _)) fun _ => er_pure rfl)

/-! ### The tree without its spans -/

/-- A type with one type argument. -/
def Single.erase : Single → Ast.DataType → Ast.DataType
  | .vec => .vec
  | .hashSet => .hashSet
  | .option => .option
  | .nonZero => .nonZero

/-- A type. -/
def Ty.erase : Ty → Ast.DataType
  | .prim p _ => .prim p
  | .single k _ _ t _ => k.erase t.erase
  | .hashMap _ _ k _ v _ => .hashMap k.erase v.erase
  | .tuple _ ts _ last _ => .tuple (ts.map Ty.erase) last.isSome
  | .array _ t _ n _ => .array t.erase n
  | .external path name _ generics _ last =>
    .external (path.map fun x => x.1.value) name.value (generics.map Ty.erase) last.isSome

/-- A named field. -/
def NamedField.erase (f : NamedField) : Ast.NamedField :=
  { comment := f.comment.map Name.value, name := f.name.value, ty := f.ty.erase, id := f.id.map Id.value }

/-- A field without name. -/
def UnnamedField.erase (f : UnnamedField) : Ast.UnnamedField := { ty := f.ty.erase, id := f.id.map Id.value }

/-- Fields. -/
def Fields.erase : Fields → Ast.Fields
  | .named d => .named (d.inner.values.map NamedField.erase) d.inner.last.isSome
  | .unnamed d => .unnamed (d.inner.values.map UnnamedField.erase) d.inner.last.isSome
  | .unit => .unit

/-- Type parameters. -/
def eraseGenerics : Option (Delimited (Punctuated Name)) → List String × Bool
  | none => ([], false)
  | some d => d.inner.erase Name.value

/-- A struct. -/
def Struct.erase (s : Struct) : Ast.Struct :=
  { comment := s.comment.map Name.value, attributes := s.attributes, name := s.name.value,
    generics := (eraseGenerics s.generics).1, genericsTrailing := (eraseGenerics s.generics).2, fields := s.fields.erase }

/-- A variant. -/
def Variant.erase (v : Variant) : Ast.Variant :=
  { comment := v.comment.map Name.value, name := v.name.value, fields := v.fields.erase, id := v.id.map Id.value }

/-- An enum. -/
def Enum.erase (e : Enum) : Ast.Enum :=
  { comment := e.comment.map Name.value, attributes := e.attributes, name := e.name.value,
    generics := (eraseGenerics e.generics).1, genericsTrailing := (eraseGenerics e.generics).2,
    variants := (e.variants.inner.erase Variant.erase).1, variantsTrailing := (e.variants.inner.erase Variant.erase).2 }

/-- An alias. -/
def TypeAlias.erase (a : TypeAlias) : Ast.TypeAlias :=
  { comment := a.comment.map Name.value, name := a.name.value, generics := (eraseGenerics a.generics).1,
    genericsTrailing := (eraseGenerics a.generics).2, target := a.target.erase }

/-- A constant. -/
def Const.erase (c : Const) : Ast.Const :=
  { comment := c.comment.map Name.value, name := c.name.value, ty := c.ty.erase, value := c.value }

/-- An import. -/
def Import.erase (i : Import) : Ast.Import :=
  { segments := i.segments.map Name.value, element := i.element.map fun x => x.2.value }

/-- A definition. -/
def Definition.erase : Definition → Ast.Definition
  | .module comment _ name _ ds _ => .module (comment.map Name.value) name.value (ds.map Definition.erase)
  | .struct s => .struct s.erase
  | .enum e => .enum e.erase
  | .typeAlias a => .typeAlias a.erase
  | .const c => .const c.erase
  | .import i => .import i.erase

/-- A schema. -/
def Schema.erase (s : Schema) : Ast.Schema :=
  { comment := s.comment.map Name.value, definitions := s.definitions.map Definition.erase }

/-! ### Types -/

theorem er_parseBasic : Er Ty.erase parseBasic Parse.parseBasic := by
  have h : Er (fun p => Ast.DataType.prim p) (alt (do
      let w ← takeWhile 2 isBasicChar
      match basicOf (String.ofList w) with
      | some p => pure p
      | none => fail)
      (alt (do lit "box<string>"; pure .boxString) (do lit "box<bytes>"; pure .boxBytes))) Parse.parseBasic := by
    refine er_alt (er_bind (er_refl _) fun w => ?_) (er_alt (er_bind (er_refl _) fun _ => er_pure rfl)
      (er_bind (er_refl _) fun _ => er_pure rfl))
    cases basicOf (String.ofList w) with
    | none => exact er_fail
    | some p => exact er_pure rfl
  exact er_spanMap h (fun x => Ty.prim x.1 x.2) Ty.erase fun _ _ => by rw [Ty.erase]

theorem er_parseSingle {rec : P Ty} {rec' : P Ast.DataType} (hr : Er Ty.erase rec rec') (k : Single) (sp1 : Span) :
    Er Ty.erase (parseSingle rec k sp1) (do let t ← Parse.parseSingle rec'; pure (k.erase t)) :=
  er_bind (er_cutErr (er_surround hr)) fun d => er_pure (by rw [Ty.erase])

theorem er_parsePair {rec : P Ty} {rec' : P Ast.DataType} (hr : Er Ty.erase rec rec') (sp1 : Span) :
    Er Ty.erase (parsePair rec sp1) (do let x ← Parse.parsePair rec'; pure (.hashMap x.1 x.2)) :=
  er_bind (h := fun d : Delimited (Ty × Span × Ty) => (d.inner.1.erase, d.inner.2.2.erase))
    (er_cutErr (er_surround (h := fun x : Ty × Span × Ty => (x.1.erase, x.2.2.erase))
      (er_bind hr fun _ => er_bind (er_sp (er_span _)) fun _ => er_bind (er_sp hr) fun _ => er_pure rfl)))
    fun d => er_pure (by rw [Ty.erase])

theorem er_parseGeneric {rec : P Ty} {rec' : P Ast.DataType} (hr : Er Ty.erase rec rec') :
    Er Ty.erase (parseGeneric rec) (Parse.parseGeneric rec') := by
  refine er_bind (er_withSpan (er_refl _)) fun x => ?_
  obtain ⟨w, sp1⟩ := x
  by_cases h1 : String.ofList w = "vec"
  · simp only [h1, if_true]; exact er_parseSingle hr .vec sp1
  by_cases h2 : String.ofList w = "hash_map"
  · simp only [h2, if_true]; exact er_parsePair hr sp1
  by_cases h3 : String.ofList w = "hash_set"
  · simp only [h3, if_true]; exact er_parseSingle hr .hashSet sp1
  by_cases h4 : String.ofList w = "option"
  · simp only [h4, if_true]; exact er_parseSingle hr .option sp1
  by_cases h5 : String.ofList w = "non_zero"
  · simp only [h5, if_true]; exact er_parseSingle hr .nonZero sp1
  · simp only [h1, h2, h3, h4, h5, if_false]; exact er_fail

theorem er_parseTuple {rec : P Ty} {rec' : P Ast.DataType} (hr : Er Ty.erase rec rec') :
    Er Ty.erase (parseTuple rec) (Parse.parseTuple rec') :=
  er_bind (er_surround (er_commaList (er_ws hr))) fun d => er_pure (by rw [Ty.erase])

theorem er_parseArray {rec : P Ty} {rec' : P Ast.DataType} (hr : Er Ty.erase rec rec') :
    Er Ty.erase (parseArray rec) (Parse.parseArray rec') :=
  er_bind (h := fun d : Delimited (Ty × Span × Nat) => (d.inner.1.erase, d.inner.2.2))
    (er_surround (h := fun x : Ty × Span × Nat => (x.1.erase, x.2.2))
      (er_bind (er_ws hr) fun _ => er_bind (er_ws (er_span _)) fun _ => er_bind (er_refl _) fun _ => er_pure rfl))
    fun d => er_pure (by rw [Ty.erase])

theorem er_parseExternal {rec : P Ty} {rec' : P Ast.DataType} (hr : Er Ty.erase rec rec') :
    Er Ty.erase (parseExternal rec) (Parse.parseExternal rec') := by
  refine er_bind (h := Option.map (List.map fun x : Name × Span => x.1.value)) (er_opt (er_many1 (er_bind (er_named _) fun _ =>
    er_bind (er_span _) fun _ => er_pure rfl))) fun path => er_bind (er_named _) fun name =>
      er_bind (er_opt (er_surround (er_commaList (er_ws hr)))) fun g => ?_
  cases g with
  | none => exact er_pure (by cases path <;> rw [Ty.erase] <;> rfl)
  | some d => exact er_pure (by cases path <;> rw [Ty.erase] <;> rfl)

theorem er_typeBody {rec : P Ty} {rec' : P Ast.DataType} (hr : Er Ty.erase rec rec') :
    Er Ty.erase (typeBody rec) (Parse.typeBody rec') :=
  er_alt er_parseBasic <| er_alt (er_parseGeneric hr) <| er_alt (er_parseTuple hr) <|
    er_alt (er_parseArray hr) (er_parseExternal hr)

theorem er_typeDepth : ∀ n, Er Ty.erase (typeDepth n) (Parse.typeDepth n)
  | 0 => fun _ => rfl
  | n + 1 => er_typeBody (er_typeDepth n)

theorem er_parseType : Er Ty.erase parseType Parse.parseType := fun s => er_typeDepth _ s

/-! ### Definitions -/

theorem er_parseId : Er Id.value parseId Parse.parseId := fun s => by
  show mapRes _ ((withSpan Parse.parseId >>= fun x => pure (Id.mk x.1 x.2)) s) = _
  rw [bind_run, withSpan]; cases Parse.parseId s <;> rfl

theorem er_optId : Er (Option.map Id.value) optId Parse.optId := er_opt (er_sp er_parseId)

theorem er_commentLine : Er Name.value commentLine Parse.commentLine := by
  intro s
  unfold commentLine Parse.commentLine
  refine er_bind (h := fun x => x) (k := Name.value) (er_refl _) (fun _ => ?_) s
  have e : ∀ (f : Text → P String), (do lit "///"; let _ ← space0; let v ← takeWhile 0 (· != '\n'); f v) =
      (do let v ← (do lit "///"; let _ ← space0; takeWhile 0 (· != '\n')); f v) := by
    intro f; funext s
    simp only [bind_run]
    cases lit "///" s with
    | back => rfl
    | cut => rfl
    | ok a r => cases space0 r <;> rfl
  rw [e]
  refine er_bind (er_withSpan (er_refl _)) fun x => ?_
  exact er_bind (er_refl _) fun _ => er_pure rfl

theorem er_parseComments : Er (List.map Name.value) parseComments Parse.parseComments := er_many er_commentLine

theorem er_parseNamedField : Er NamedField.erase parseNamedField Parse.parseNamedField := by
  refine er_bind (er_ws er_parseComments) fun comment => ?_
  have h : Er (fun x : Name × Span × Ty × Option Id => (x.1.value, x.2.2.1.erase, x.2.2.2.map Id.value))
      (do let name ← sp (named parseSegment)
          let colon ← sp (span (chr ':'))
          let ty ← sp parseType
          let id ← optId
          pure (name, colon, ty, id))
      (do let name ← sp parseSegment
          sp (chr ':')
          let ty ← sp Parse.parseType
          let id ← Parse.optId
          pure (name, ty, id)) :=
    er_bind (er_sp (er_named _)) fun _ => er_bind (er_sp (er_span _)) fun _ => er_bind (er_sp er_parseType) fun _ =>
      er_bind er_optId fun _ => er_pure rfl
  intro s
  have h2 := er_bind (k := NamedField.erase) (er_withSpan h) (f := fun x => pure ⟨comment, x.1.1, x.1.2.1, x.1.2.2.1, x.1.2.2.2, x.2⟩)
    (g := fun y => pure ⟨comment.map Name.value, y.1, y.2.1, y.2.2⟩) (fun _ => er_pure rfl) s
  refine h2.trans ?_
  simp only [bind_run]
  cases sp parseSegment s with
  | back => rfl
  | cut => rfl
  | ok a r =>
    simp only
    cases sp (chr ':') r with
    | back => rfl
    | cut => rfl
    | ok a r =>
      simp only
      cases sp Parse.parseType r with
      | back => rfl
      | cut => rfl
      | ok a r => simp only; cases Parse.optId r <;> rfl

theorem er_parseUnnamedField : Er UnnamedField.erase parseUnnamedField Parse.parseUnnamedField := by
  have h : Er (fun x : Ty × Option Id => (⟨x.1.erase, x.2.map Id.value⟩ : Ast.UnnamedField))
      (do let ty ← ws parseType
          let id ← optId
          pure (ty, id)) Parse.parseUnnamedField :=
    er_bind (er_ws er_parseType) fun _ => er_bind er_optId fun _ => er_pure rfl
  exact er_spanMap h (fun x => UnnamedField.mk x.1.1 x.1.2 x.2) UnnamedField.erase fun _ _ => rfl

theorem er_parseFields : Er Fields.erase parseFields Parse.parseFields := by
  refine er_bind (er_refl _) fun c => ?_
  by_cases h1 : c = '{'
  · simp only [h1, if_true]
    exact er_bind (er_surround (er_commaList er_parseNamedField)) fun d => er_pure rfl
  by_cases h2 : c = '('
  · simp only [h2, if_true]
    exact er_bind (er_surround (er_commaList er_parseUnnamedField)) fun d => er_pure rfl
  · simp only [h1, h2, if_false]
    exact er_pure rfl

theorem er_parseGenerics : Er eraseGenerics parseGenerics Parse.parseGenerics := by
  intro s
  have h := er_opt (er_surround (o := '<') (c := '>') (er_commaList (er_ws (er_named parseCamel)))) s
  unfold Parse.parseGenerics
  rw [bind_run, ← h, parseGenerics]
  cases opt (surround '<' '>' (commaList (ws (named parseCamel)))) s with
  | back => rfl
  | cut => rfl
  | ok o r => cases o <;> rfl

theorem er_parseStruct : Er Struct.erase parseStruct Parse.parseStruct :=
  er_bind (er_span _) fun _ => er_bind (er_refl _) fun _ => er_cutErr <| er_bind (er_named _) fun _ =>
    er_bind er_parseGenerics fun _ => er_bind (er_sp er_parseFields) fun _ => er_pure rfl

theorem er_parseVariant : Er Variant.erase parseVariant Parse.parseVariant := by
  refine er_bind (er_ws er_parseComments) fun comment => ?_
  have h : Er (fun x : Name × Fields × Option Id => (x.1.value, x.2.1.erase, x.2.2.map Id.value))
      (do let name ← sp (named parseCamel)
          let fields ← sp parseFields
          let id ← optId
          pure (name, fields, id))
      (do let name ← sp parseCamel
          let fields ← sp Parse.parseFields
          let id ← Parse.optId
          pure (name, fields, id)) :=
    er_bind (er_sp (er_named _)) fun _ => er_bind (er_sp er_parseFields) fun _ => er_bind er_optId fun _ => er_pure rfl
  intro s
  have h2 := er_bind (k := Variant.erase) (er_withSpan h) (f := fun x => pure ⟨comment, x.1.1, x.1.2.1, x.1.2.2, x.2⟩)
    (g := fun y => pure ⟨comment.map Name.value, y.1, y.2.1, y.2.2⟩) (fun _ => er_pure rfl) s
  refine h2.trans ?_
  simp only [bind_run]
  cases sp parseCamel s with
  | back => rfl
  | cut => rfl
  | ok a r =>
    simp only
    cases sp Parse.parseFields r with
    | back => rfl
    | cut => rfl
    | ok a r => simp only; cases Parse.optId r <;> rfl

theorem er_parseEnum : Er Enum.erase parseEnum Parse.parseEnum :=
  er_bind (er_span _) fun _ => er_bind (er_refl _) fun _ => er_cutErr <| er_bind (er_named _) fun _ =>
    er_bind er_parseGenerics fun _ => er_bind (er_sp (er_surround (er_commaList er_parseVariant))) fun _ => er_pure rfl

theorem er_parseAlias : Er TypeAlias.erase parseAlias Parse.parseAlias :=
  er_bind (er_span _) fun _ => er_bind (er_refl _) fun _ => er_cutErr <| er_bind (er_named _) fun _ =>
    er_bind er_parseGenerics fun _ => er_bind (er_sp (er_span _)) fun _ => er_bind (er_sp er_parseType) fun _ =>
      er_bind (er_sp (er_span _)) fun _ => er_pure rfl

theorem er_parseConst (std : Std) : Er Const.erase (parseConst std) (Parse.parseConst std) :=
  er_bind (er_span _) fun _ => er_bind (er_refl _) fun _ => er_cutErr <| er_bind (er_named _) fun _ =>
    er_bind (er_span _) fun _ => er_bind (er_sp er_parseType) fun _ => er_bind (er_sp (er_span _)) fun _ =>
      er_bind (er_sp (er_withSpan (er_refl _))) fun _ => er_bind (er_span _) fun _ => er_pure rfl

theorem er_parseImport : Er Import.erase parseImport Parse.parseImport := by
  refine er_bind (er_span _) fun _ => er_bind (er_refl _) fun _ => er_cutErr <|
    er_bind (er_separated1 (er_named _) (er_span _)) fun _ =>
      er_bind (h := Option.map fun x : Span × Name => x.2.value) (er_opt ?_) fun _ => er_bind (er_span _) fun _ => er_pure rfl
  refine er_bind (er_span (lit "::")) fun _ s => ?_
  have h := er_alt (er_named parseCamel) (er_named parseCamel) s
  rw [bind_run, ← h]
  cases alt (named parseCamel) (named parseCamel) s <;> rfl

theorem er_parseModule {rec : P Definition} {rec' : P Ast.Definition} (hr : Er Definition.erase rec rec') :
    Er Definition.erase (parseModule rec) (Parse.parseModule rec') :=
  er_bind (er_span _) fun _ => er_bind (er_refl _) fun _ => er_cutErr <| er_bind (er_named _) fun _ =>
    er_bind (er_sp (er_surround (er_many (er_ws hr)))) fun _ => er_pure (by rw [Definition.erase]; rfl)

theorem er_defKind (std : Std) {rec : P Definition} {rec' : P Ast.Definition} (hr : Er Definition.erase rec rec') :
    Er Definition.erase (defKind std rec) (Parse.defKind std rec') := by
  refine er_bind (er_refl _) fun c => ?_
  by_cases h1 : c = 'm'
  · simp only [h1, if_true]; exact er_parseModule hr
  by_cases h2 : c = 's'
  · simp only [h2, if_true]; exact er_bind er_parseStruct fun _ => er_pure (by rw [Definition.erase])
  by_cases h3 : c = 'e'
  · simp only [h3, if_true]; exact er_bind er_parseEnum fun _ => er_pure (by rw [Definition.erase])
  by_cases h4 : c = 'c'
  · simp only [h4, if_true]; exact er_bind (er_parseConst std) fun _ => er_pure (by rw [Definition.erase])
  by_cases h5 : c = 't'
  · simp only [h5, if_true]; exact er_bind er_parseAlias fun _ => er_pure (by rw [Definition.erase])
  by_cases h6 : c = 'u'
  · simp only [h6, if_true]; exact er_bind er_parseImport fun _ => er_pure (by rw [Definition.erase])
  · simp only [h1, h2, h3, h4, h5, h6, if_false]; exact er_fail

theorem erase_with (d : Definition) (c : List Name) (as : List Ast.Attribute) :
    (withAttributes (withComment d c) as).erase =
      Parse.withAttributes (Parse.withComment d.erase (c.map Name.value)) as := by
  cases d <;> simp only [withComment, withAttributes, Definition.erase, Parse.withComment, Parse.withAttributes] <;> rfl

theorem er_defBody (std : Std) {rec : P Definition} {rec' : P Ast.Definition} (hr : Er Definition.erase rec rec') :
    Er Definition.erase (defBody std rec) (Parse.defBody std rec') :=
  er_bind (er_ws er_parseComments) fun _ => er_bind (er_refl _) fun _ => er_bind (er_sp (er_defKind std hr)) fun _ =>
    er_pure (erase_with _ _ _)

theorem er_defDepth (std : Std) : ∀ n, Er Definition.erase (defDepth std n) (Parse.defDepth std n)
  | 0 => fun _ => rfl
  | n + 1 => er_defBody std (er_defDepth std n)

theorem er_parseDefinition (std : Std) : Er Definition.erase (parseDefinition std) (Parse.parseDefinition std) :=
  fun s => er_defDepth std _ s

theorem er_schemaParser (std : Std) : Er Schema.erase (schemaParser std) (Parse.schemaParser std) :=
  er_bind (er_opt (er_bind (er_ws er_parseComments) fun _ => er_bind (er_refl _) fun _ => er_pure rfl)) fun c =>
    er_bind (er_many (er_parseDefinition std)) fun _ => er_bind (er_refl _) fun _ => er_pure (by cases c <;> rfl)

/-- The parser with spans accepts the same texts and gives the same schemas. -/
theorem erase_parseSchema (std : Std) (text : Text) :
    (parseSchema std text).map Schema.erase = Parse.parseSchema std text := by
  have h := er_schemaParser std text
  unfold parseSchema Parse.parseSchema
  rw [← h]
  cases schemaParser std text with
  | back => rfl
  | cut => rfl
  | ok s r => cases r <;> rfl

end Mabo.Spanned
