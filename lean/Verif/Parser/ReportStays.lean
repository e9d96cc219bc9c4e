import Verif.Parser.ReportPlaces
/-!
All places in an error of the parser are places of the text: the parsers of schema files.
-/
namespace Mabo.Failing
open Mabo.Parse (Text Std isSpace isMulti isLower isUpper isDigit isAlnum)
open Mabo.Ast

instance : Places Unit := ⟨fun _ => [], fun _ => True⟩
instance : Places Text := ⟨fun s => [atStop s], fun _ => True⟩
instance : Places CommentError := ⟨fun e => [e.at_, atStop e.cause], fun _ => False⟩
instance : Places IdError := ⟨fun e => [e.at_, atStop e.cause], fun e => e.at_.start = e.cause⟩
instance {E : Type} [Places E] : Places (At × E) := ⟨fun e => e.1 :: places e.2, fun e => sound e.2⟩

/-- The places of an error of type parameters. -/
def genericsPlaces : GenericsCause → List At
  | .parser pos | .invalidName pos => [atStop pos]

instance : Places GenericsCause := ⟨genericsPlaces, fun _ => True⟩

mutual
/-- The places of an error of a type. -/
def typePlaces : TypeCause → List At
  | .parser pos => [atStop pos]
  | .type a cause => a :: typePlaces cause
  | .segment cause => importPlaces cause
/-- The places of an error of an import. -/
def importPlaces : ImportCause → List At
  | .parser pos | .invalidSegmentName pos => [atStop pos]
  | .structName cause => structPlaces cause
  | .enumName cause => enumPlaces cause
/-- The places of an error of a struct. -/
def structPlaces : StructCause → List At
  | .parser pos | .invalidName pos => [atStop pos]
  | .generics a cause => a :: genericsPlaces cause
  | .fields a cause => a :: fieldsPlaces cause
/-- The places of an error of an enum. -/
def enumPlaces : EnumCause → List At
  | .parser pos | .invalidName pos | .invalidVariantName pos => [atStop pos]
  | .generics a cause => a :: genericsPlaces cause
  | .field a cause => a :: fieldsPlaces cause
  | .comment e => places e
  | .id e => places e
/-- The places of an error of fields. -/
def fieldsPlaces : FieldsCause → List At
  | .parser pos | .invalidName pos => [atStop pos]
  | .type a cause => a :: typePlaces cause
  | .id e => places e
  | .comment e => places e
end

mutual
/-- No error of a comment, and errors of ids have one place. -/
def typeSound : TypeCause → Prop
  | .parser _ => True
  | .type _ cause => typeSound cause
  | .segment cause => importSound cause
/-- As `typeSound`. -/
def importSound : ImportCause → Prop
  | .parser _ | .invalidSegmentName _ => True
  | .structName cause => structSound cause
  | .enumName cause => enumSound cause
/-- As `typeSound`. -/
def structSound : StructCause → Prop
  | .parser _ | .invalidName _ | .generics _ _ => True
  | .fields _ cause => fieldsSound cause
/-- As `typeSound`. -/
def enumSound : EnumCause → Prop
  | .parser _ | .invalidName _ | .invalidVariantName _ | .generics _ _ => True
  | .field _ cause => fieldsSound cause
  | .comment e => sound e
  | .id e => sound e
/-- As `typeSound`. -/
def fieldsSound : FieldsCause → Prop
  | .parser _ | .invalidName _ => True
  | .type _ cause => typeSound cause
  | .id e => sound e
  | .comment e => sound e
end

instance : Places TypeCause := ⟨typePlaces, typeSound⟩
instance : Places ImportCause := ⟨importPlaces, importSound⟩
instance : Places StructCause := ⟨structPlaces, structSound⟩
instance : Places EnumCause := ⟨enumPlaces, enumSound⟩
instance : Places FieldsCause := ⟨fieldsPlaces, fieldsSound⟩

/-- The places of an error of a literal. -/
def literalPlaces : LiteralCause → List At
  | .parser pos | .foundReference pos | .invalidInt pos => [atStop pos]

instance : Places LiteralCause := ⟨literalPlaces, fun _ => True⟩

/-- The places of an error of a constant. -/
def constPlaces : ConstCause → List At
  | .parser pos | .unexpectedChar pos _ | .invalidName pos => [atStop pos]
  | .type a cause => a :: typePlaces cause
  | .literal a cause => a :: literalPlaces cause

/-- As `typeSound`. -/
def constSound : ConstCause → Prop
  | .type _ cause => typeSound cause
  | _ => True

instance : Places ConstCause := ⟨constPlaces, constSound⟩

/-- The places of an error of an alias. -/
def aliasPlaces : AliasCause → List At
  | .parser pos | .invalidName pos => [atStop pos]
  | .generics a cause => a :: genericsPlaces cause
  | .type a cause => a :: typePlaces cause

/-- As `typeSound`. -/
def aliasSound : AliasCause → Prop
  | .type _ cause => typeSound cause
  | _ => True

instance : Places AliasCause := ⟨aliasPlaces, aliasSound⟩

/-- The places of an error of an attribute. -/
def attributePlaces : AttributeCause → List At
  | .parser pos => [atStop pos]
  | .literal a cause => a :: literalPlaces cause

instance : Places AttributeCause := ⟨attributePlaces, fun _ => True⟩

mutual
/-- The places of an error of a module. -/
def modulePlaces : ModuleCause → List At
  | .parser pos | .invalidName pos => [atStop pos]
  | .definition e => definitionPlaces e
/-- The places of an error of a definition. -/
def definitionPlaces : DefinitionError → List At
  | .parser pos => [atStop pos]
  | .comment e => places e
  | .attribute a cause => a :: attributePlaces cause
  | .module a cause => a :: modulePlaces cause
  | .struct a cause => a :: structPlaces cause
  | .enum a cause => a :: enumPlaces cause
  | .const a cause => a :: constPlaces cause
  | .alias a cause => a :: aliasPlaces cause
  | .import a cause => a :: importPlaces cause
end

mutual
/-- As `typeSound`. -/
def moduleSound : ModuleCause → Prop
  | .parser _ | .invalidName _ => True
  | .definition e => definitionSound e
/-- As `typeSound`. -/
def definitionSound : DefinitionError → Prop
  | .parser _ | .attribute _ _ => True
  | .comment e => sound e
  | .module _ cause => moduleSound cause
  | .struct _ cause => structSound cause
  | .enum _ cause => enumSound cause
  | .const _ cause => constSound cause
  | .alias _ cause => aliasSound cause
  | .import _ cause => importSound cause
end

instance : Places ModuleCause := ⟨modulePlaces, moduleSound⟩
instance : Places DefinitionError := ⟨definitionPlaces, definitionSound⟩

/-- The places of an error of a schema. -/
def schemaPlaces : SchemaCause → List At
  | .parser pos => [atStop pos]
  | .comment e => places e
  | .definition e => definitionPlaces e

/-- As `typeSound`. -/
def schemaSound : SchemaCause → Prop
  | .parser _ => True
  | .comment e => sound e
  | .definition e => definitionSound e

instance : Places SchemaCause := ⟨schemaPlaces, schemaSound⟩

theorem one_in {s r : Text} (h : r <:+ s) : ∀ a ∈ [atStop r], a.In s := fun a ha => by
  rw [List.mem_singleton.1 ha]
  exact atStop_in h

theorem cons_in {s : Text} {b : At} {l : List At} (h : b.In s) (hl : ∀ a ∈ l, a.In s) : ∀ a ∈ b :: l, a.In s :=
  List.forall_mem_cons.2 ⟨h, hl⟩

instance : Plain Unit := ⟨fun _ => ⟨fun _ h => (nomatch h), trivial⟩⟩
instance : Plain Text := ⟨fun _ => ⟨one_in (List.suffix_refl _), trivial⟩⟩
instance : Plain GenericsCause := ⟨fun _ => ⟨one_in (List.suffix_refl _), trivial⟩⟩
instance : Plain TypeCause := ⟨fun _ => ⟨by
  show ∀ a ∈ typePlaces (.parser _), _
  rw [typePlaces]; exact one_in (List.suffix_refl _), by show typeSound (.parser _); rw [typeSound]; trivial⟩⟩
instance : Plain ImportCause := ⟨fun _ => ⟨by
  show ∀ a ∈ importPlaces (.parser _), _
  rw [importPlaces]; exact one_in (List.suffix_refl _), by show importSound (.parser _); rw [importSound]; trivial⟩⟩
instance : Plain StructCause := ⟨fun _ => ⟨by
  show ∀ a ∈ structPlaces (.parser _), _
  rw [structPlaces]; exact one_in (List.suffix_refl _), by show structSound (.parser _); rw [structSound]; trivial⟩⟩
instance : Plain EnumCause := ⟨fun _ => ⟨by
  show ∀ a ∈ enumPlaces (.parser _), _
  rw [enumPlaces]; exact one_in (List.suffix_refl _), by show enumSound (.parser _); rw [enumSound]; trivial⟩⟩
instance : Plain FieldsCause := ⟨fun _ => ⟨by
  show ∀ a ∈ fieldsPlaces (.parser _), _
  rw [fieldsPlaces]; exact one_in (List.suffix_refl _), by show fieldsSound (.parser _); rw [fieldsSound]; trivial⟩⟩
instance : Plain LiteralCause := ⟨fun _ => ⟨one_in (List.suffix_refl _), trivial⟩⟩
instance : Plain ConstCause := ⟨fun _ => ⟨one_in (List.suffix_refl _), trivial⟩⟩
instance : Plain AliasCause := ⟨fun _ => ⟨one_in (List.suffix_refl _), trivial⟩⟩
instance : Plain AttributeCause := ⟨fun _ => ⟨one_in (List.suffix_refl _), trivial⟩⟩
instance : Plain DefinitionError := ⟨fun _ => ⟨by
  show ∀ a ∈ definitionPlaces (.parser _), _
  rw [definitionPlaces]; exact one_in (List.suffix_refl _), by show definitionSound (.parser _); rw [definitionSound]; trivial⟩⟩
instance : Plain ModuleCause := ⟨fun _ => ⟨by
  show ∀ a ∈ modulePlaces (.parser _), _
  rw [modulePlaces]; exact one_in (List.suffix_refl _), by show moduleSound (.parser _); rw [moduleSound]; trivial⟩⟩
instance : Plain SchemaCause := ⟨fun _ => ⟨one_in (List.suffix_refl _), trivial⟩⟩

/-- An error with the same places is as good. -/
theorem same_in {E E' : Type} [Places E] [Places E'] {f : E → E'} (h1 : ∀ e, places (f e) = places e)
    (h2 : ∀ e, sound e → sound (f e)) : ∀ s e, Within s e → Within s (f e) := fun s e h => by
  refine ⟨?_, h2 e h.2⟩
  rw [h1]
  exact h.1

theorem stays_nameOr {E : Type} [Places E] {cause : Text → E} (h : ∀ s, places (cause s) = [atStop s]) (h' : ∀ s, sound (cause s))
    (f g : Char → Bool) : Stays (nameOr cause f g) :=
  stays_mapErrAt (stays_name f g) fun s r _ hr _ => ⟨by rw [h]; exact one_in hr, h' r⟩

/-! ### Types -/

/-- The error of an inner type is one of a type. -/
theorem inner_in : ∀ s (e : At × TypeCause), Within s e → Within s (TypeCause.type e.1 e.2) :=
  same_in (fun e => by show typePlaces _ = _; rw [typePlaces]; rfl) fun e h => by show typeSound _; rw [typeSound]; exact h

theorem stays_parseBasic : Stays parseBasic :=
  stays_alt (stays_bind (stays_takeWhile _ _) fun w => by
    cases Parse.basicOf (String.ofList w) with
    | none => exact stays_fail
    | some p => exact stays_pure _)
  (stays_alt (stays_bind (stays_lit _) fun _ => stays_pure _) (stays_bind (stays_lit _) fun _ => stays_pure _))

section
variable {rec : F (At × TypeCause) DataType}

theorem stays_inner (h : Stays rec) : Stays (inner rec) := stays_mapErr h inner_in

theorem stays_parseSingle (h : Stays rec) : Stays (parseSingle rec) := stays_cutErr (stays_surround (stays_inner h))

theorem stays_parsePair (h : Stays rec) : Stays (parsePair rec) :=
  stays_cutErr (stays_surround (stays_bind (stays_inner h) fun _ => stays_bind (stays_sp (stays_chr _)) fun _ =>
    stays_bind (stays_sp (stays_inner h)) fun _ => stays_pure _))

theorem stays_parseGeneric (h : Stays rec) : Stays (parseGeneric rec) :=
  stays_bind (stays_takeWhile _ _) fun _ =>
    stays_ite (stays_bind (stays_parseSingle h) fun _ => stays_pure _) <|
    stays_ite (stays_bind (stays_parsePair h) fun _ => stays_pure _) <|
    stays_ite (stays_bind (stays_parseSingle h) fun _ => stays_pure _) <|
    stays_ite (stays_bind (stays_parseSingle h) fun _ => stays_pure _) <|
    stays_ite (stays_bind (stays_parseSingle h) fun _ => stays_pure _) stays_fail

theorem stays_parseTuple (h : Stays rec) : Stays (parseTuple rec) :=
  stays_bind (stays_surround (stays_commaList (stays_ws (stays_inner h)))) fun _ => stays_pure _

theorem stays_parseArray (h : Stays rec) : Stays (parseArray rec) :=
  stays_bind (stays_surround (stays_bind (stays_ws (stays_inner h)) fun _ => stays_bind (stays_ws (stays_chr _)) fun _ =>
    stays_bind (stays_ws (stays_decUint _)) fun _ => stays_pure _)) fun _ => stays_pure _

theorem stays_parseSegment : Stays parseSegment :=
  stays_nameOr (fun s => by show importPlaces _ = _; rw [importPlaces]) (fun s => by show importSound _; rw [importSound]; trivial) _ _

theorem segment_in : ∀ s (e : ImportCause), Within s e → Within s (TypeCause.segment e) :=
  same_in (fun e => by show typePlaces _ = _; rw [typePlaces]; rfl) fun e h => by show typeSound _; rw [typeSound]; exact h

theorem stays_parseExternal (h : Stays rec) : Stays (parseExternal rec) :=
  stays_bind (stays_opt (stays_many1 (stays_bind (stays_mapErr stays_parseSegment segment_in) fun _ =>
      stays_bind (stays_lit _) fun _ => stays_pure _))) fun _ =>
    stays_bind (stays_name _ _) fun _ =>
    stays_bind (stays_opt (stays_surround (stays_commaList (stays_ws (stays_inner h))))) fun o => by
      cases o with
      | none => exact stays_pure _
      | some p => exact stays_pure _

theorem stays_typeBody (h : Stays rec) : Stays (typeBody rec) :=
  stays_mapErrAt (stays_alt stays_parseBasic <| stays_alt (stays_parseGeneric h) <| stays_alt (stays_parseTuple h) <|
    stays_alt (stays_parseArray h) (stays_parseExternal h)) fun s r e hr he => ⟨cons_in ⟨List.suffix_refl _, hr⟩ he.1, he.2⟩

end

theorem stays_typeDepth : ∀ n, Stays (typeDepth n)
  | 0 => fun s => ⟨fun _ _ h => (nomatch h), fun _ _ _ h => by
      cases h
      exact ⟨List.suffix_refl _, cons_in (atStop_in (List.suffix_refl _)) (here_in (E := TypeCause) s).2.1,
        (here_in (E := TypeCause) s).2.2⟩⟩
  | n + 1 => stays_typeBody (stays_typeDepth n)

theorem stays_parseType : Stays parseType := fun s => stays_typeDepth _ s

theorem stays_parseId : Stays parseId :=
  stays_mapErrAt (E := Unit) (stays_bind (stays_chr _) fun _ => stays_bind (stays_decUint _) fun _ => stays_pure _)
    fun s r _ hr _ => ⟨cons_in (atStop_in hr) (one_in hr), rfl⟩

/-! ### Literals -/

theorem stays_optSign {E : Type} [Places E] [FromInput E] [Plain E] : Stays (optSign : F E _) := stays_opt (stays_oneOf _)

theorem stays_parseFloat (std : Std) : Stays (parseFloat std) :=
  stays_bind (stays_taken (stays_bind stays_optSign fun _ => stays_bind (stays_takeWhile _ _) fun _ =>
    stays_bind (stays_chr _) fun _ => stays_bind (stays_takeWhile _ _) fun _ =>
    stays_bind (stays_opt (stays_bind (stays_oneOf _) fun _ => stays_bind stays_optSign fun _ =>
      stays_cutErr (stays_takeWhile _ _))) fun _ => stays_pure _)) fun _ => stays_pure _

theorem intText_stops {s r : Text} {b : Bool} {e : Unit} (h : intText s = .fail b e r) : r <:+ s := by
  rw [intText] at h
  rcases bind_fail h with h | ⟨sg, r1, h1, h⟩
  · exact ((stays_optSign (E := Unit) s).2 _ _ _ h).1
  · have hr1 := (stays_optSign (E := Unit) s).1 _ _ h1
    rcases bind_fail h with h | ⟨ds, r2, h2, h⟩
    · exact ((stays_takeWhile (E := Unit) _ _ r1).2 _ _ _ h).1.trans hr1
    · simp only at h
      rcases ite_fail h with ⟨_, h⟩ | ⟨_, h⟩
      · exact (nomatch h)
      · cases h; exact List.suffix_refl _

theorem stays_parseInt : Stays parseInt := fun s => by
  rw [parseInt, mapErrAt]
  cases h : intText s with
  | ok a r =>
    refine ⟨fun _ _ h' => ?_, fun _ _ _ h' => (nomatch h')⟩
    cases h'
    exact suf_sim sim_intText Lsp.suf_parseInt _ _ _ h
  | fail b e r =>
    refine ⟨fun _ _ h' => (nomatch h'), fun _ _ _ h' => ?_⟩
    cases h'
    exact ⟨intText_stops h, one_in (intText_stops h), trivial⟩

theorem stays_parseUnicode : Stays parseUnicode := fun s => by
  rw [parseUnicode]
  have h1 := stays_chr (E := LiteralCause) 'u' s
  rw [bind_run]
  cases hc : (chr 'u' : F LiteralCause Unit) s with
  | fail b e r =>
    refine ⟨fun _ _ h' => (nomatch h'), fun _ _ _ h' => ?_⟩
    cases h'
    exact h1.2 _ _ _ hc
  | ok a r =>
    have hr := h1.1 _ _ hc
    simp only
    rw [bind_run]
    have h2 : Stays (cutErr (do chr '{'; let ds ← takeWhileMax 1 6 Parse.isHex; chr '}'; pure ds) : F LiteralCause Text) :=
      stays_cutErr (stays_bind (stays_chr _) fun _ => stays_bind (stays_takeWhileMax _ _ _) fun _ =>
        stays_bind (stays_chr _) fun _ => stays_pure _)
    have h2 := h2 r
    cases hd : (cutErr (do chr '{'; let ds ← takeWhileMax 1 6 Parse.isHex; chr '}'; pure ds) : F LiteralCause Text) r with
    | fail b e r' =>
      refine ⟨fun _ _ h' => (nomatch h'), fun _ _ _ h' => ?_⟩
      cases h'
      exact ⟨(h2.2 _ _ _ hd).1.trans hr, (h2.2 _ _ _ hd).2.mono hr⟩
    | ok ds r' =>
      simp only
      cases Parse.charOf (Parse.hexVal ds) with
      | none => exact ⟨fun _ _ h' => (nomatch h'), fun _ _ _ h' => by cases h'; exact here_in s⟩
      | some c => exact ⟨fun _ _ h' => by cases h'; exact (h2.1 _ _ hd).trans hr, fun _ _ _ h' => (nomatch h')⟩

theorem stays_escape (c d : Char) : Stays (do chr c; pure d : F LiteralCause Char) := stays_bind (stays_chr _) fun _ => stays_pure _

theorem stays_escapedChar : Stays escapedChar :=
  stays_bind stays_peekAny fun _ =>
    stays_ite (stays_escape _ _) <| stays_ite (stays_escape _ _) <| stays_ite (stays_escape _ _) <|
    stays_ite (stays_escape _ _) <| stays_ite (stays_escape _ _) <| stays_ite (stays_escape _ _) <|
    stays_ite (stays_escape _ _) <| stays_ite (stays_escape _ _) <| stays_ite (stays_escape _ _) <|
    stays_ite stays_parseUnicode stays_fail

theorem stays_parseFragment : Stays parseFragment :=
  stays_alt (stays_takeWhile _ _)
    (stays_alt (stays_bind (stays_chr _) fun _ => stays_bind stays_escapedChar fun _ => stays_pure _)
      (stays_bind (stays_chr _) fun _ => stays_bind (stays_takeWhile _ _) fun _ => stays_pure _))

theorem stays_parseString : Stays parseString :=
  stays_bind (stays_chr _) fun _ => stays_bind (stays_cutErr (stays_bind (stays_many stays_parseFragment) fun _ =>
    stays_bind (stays_chr _) fun _ => stays_pure _)) fun _ => stays_pure _

theorem stays_parseBytes : Stays parseBytes :=
  stays_bind (stays_chr _) fun _ => stays_bind (stays_cutErr
    (stays_bind (stays_separated1 (stays_ws (stays_decUint _)) (stays_ws (stays_chr _))) fun _ =>
      stays_bind (stays_opt (stays_ws (stays_chr _))) fun _ => stays_bind (stays_ws (stays_chr _)) fun _ => stays_pure _))
    fun _ => stays_pure _

theorem stays_parseLiteral (std : Std) : Stays (parseLiteral std) :=
  stays_mapErrAt (stays_bind stays_peekAny fun _ =>
    stays_ite (stays_bind (stays_lit _) fun _ => stays_pure _) <|
    stays_ite (stays_bind (stays_lit _) fun _ => stays_pure _) <|
    stays_ite (stays_cutErr (stays_alt (stays_parseFloat std) stays_parseInt)) <|
    stays_ite stays_parseString <| stays_ite stays_parseBytes stays_fail)
    fun s _ e _ he => ⟨cons_in (atStop_in (List.suffix_refl _)) he.1, he.2⟩

/-! ### Comments, attributes, fields -/

theorem stays_parseComments : Stays parseComments := fun s =>
  ⟨fun a r h => suf_parseComments s a r h, fun _ _ _ h => (parseComments_ok h).elim⟩

theorem stays_comments {E : Type} [Places E] [FromInput E] [Plain E] {f : CommentError → E} : Stays (ws (mapErr f parseComments)) :=
  stays_ws (stays_mapErr stays_parseComments fun _ _ h => h.2.elim)

theorem stays_attrList {close : Char} {rec : F AttributeCause Attribute} (h : Stays rec) : Stays (attrList close rec) :=
  stays_bind (stays_separated1 (stays_ws h) (stays_ws (stays_chr _))) fun _ => stays_bind (stays_opt (stays_chr _)) fun _ =>
    stays_bind (stays_ws (stays_chr _)) fun _ => stays_pure _

theorem stays_attrSingle (std : Std) (n : String) : Stays (attrSingle std n) :=
  stays_bind (stays_takeWhile _ _) fun _ => stays_bind (stays_chr _) fun _ => stays_bind (stays_takeWhile _ _) fun _ =>
    stays_bind (stays_mapErr (stays_parseLiteral std) (same_in (fun _ => rfl) fun _ _ => trivial)) fun _ => stays_pure _

theorem stays_attrBody (std : Std) {rec : F AttributeCause Attribute} (h : Stays rec) : Stays (attrBody std rec) :=
  stays_bind (stays_name _ _) fun n =>
    stays_alt (stays_bind (stays_chr _) fun _ => stays_bind (stays_cutErr (stays_attrList h)) fun _ => stays_pure _) <|
    stays_alt (stays_attrSingle std n) (stays_pure _)

theorem stays_attrDepth (std : Std) : ∀ n, Stays (attrDepth std n)
  | 0 => fun s => ⟨fun _ _ h => (nomatch h), fun _ _ _ h => by cases h; exact here_in s⟩
  | n + 1 => stays_attrBody std (stays_attrDepth std n)

theorem stays_parseAttr (std : Std) : Stays (parseAttr std) := fun s => stays_attrDepth std _ s

theorem stays_parseAttribute (std : Std) : Stays (parseAttribute std) :=
  stays_bind (stays_lit _) fun _ => stays_bind (stays_chr _) fun _ => stays_cutErr (stays_attrList (stays_parseAttr std))

theorem stays_parseAttributes (std : Std) : Stays (parseAttributes std) :=
  stays_mapErrAt (stays_bind (stays_many (stays_bind (stays_parseAttribute std) fun _ => stays_bind (stays_chr _) fun _ => stays_pure _))
    fun _ => stays_pure _) fun s _ e _ he => ⟨cons_in (atStop_in (List.suffix_refl _)) he.1, he.2⟩

theorem fieldType_in : ∀ s (e : At × TypeCause), Within s e → Within s (FieldsCause.type e.1 e.2) :=
  same_in (fun e => by show fieldsPlaces _ = _; rw [fieldsPlaces]; rfl) fun e h => by show fieldsSound _; rw [fieldsSound]; exact h

theorem fieldId_in : ∀ s (e : IdError), Within s e → Within s (FieldsCause.id e) :=
  same_in (fun e => by show fieldsPlaces _ = _; rw [fieldsPlaces]) fun e h => by show fieldsSound _; rw [fieldsSound]; exact h

theorem stays_parseNamedField : Stays parseNamedField :=
  stays_bind stays_comments fun _ => stays_bind (stays_sp (stays_nameOr (fun s => by show fieldsPlaces _ = _; rw [fieldsPlaces])
      (fun s => by show fieldsSound _; rw [fieldsSound]; trivial) _ _)) fun _ =>
    stays_bind (stays_sp (stays_chr _)) fun _ => stays_bind (stays_sp (stays_mapErr stays_parseType fieldType_in)) fun _ =>
    stays_bind (stays_opt (stays_sp (stays_mapErr stays_parseId fieldId_in))) fun _ => stays_pure _

theorem stays_parseUnnamedField : Stays parseUnnamedField :=
  stays_bind (stays_ws (stays_mapErr stays_parseType fieldType_in)) fun _ =>
    stays_bind (stays_opt (stays_sp (stays_mapErr stays_parseId fieldId_in))) fun _ => stays_pure _

theorem stays_parseFields : Stays parseFields :=
  stays_mapErrAt (stays_bind stays_peekAny fun _ =>
    stays_ite (stays_bind (stays_surround (stays_commaList stays_parseNamedField)) fun _ => stays_pure _) <|
    stays_ite (stays_bind (stays_surround (stays_commaList stays_parseUnnamedField)) fun _ => stays_pure _) (stays_pure _))
    fun s _ e _ he => ⟨cons_in (fromUntil_in _ _) he.1, he.2⟩

theorem stays_genericsParser : Stays genericsParser :=
  stays_mapErrAt (stays_surround (stays_commaList (stays_ws (stays_nameOr (fun _ => rfl) (fun _ => trivial) _ _))))
    fun s r e hr he => ⟨cons_in (atStop_in hr) he.1, he.2⟩

theorem stays_parseGenerics {E : Type} [Places E] [FromInput E] [Plain E] {f : At × GenericsCause → E}
    (hf : ∀ s e, Within s e → Within s (f e)) : Stays (parseGenerics f) :=
  stays_bind (stays_opt (stays_mapErr stays_genericsParser hf)) fun _ => stays_pure _

/-! ### Definitions -/

theorem structGenerics_in : ∀ s (e : At × GenericsCause), Within s e → Within s (StructCause.generics e.1 e.2) :=
  same_in (fun e => by show structPlaces _ = _; rw [structPlaces]; rfl) fun e h => by show structSound _; rw [structSound]; trivial
theorem structFields_in : ∀ s (e : At × FieldsCause), Within s e → Within s (StructCause.fields e.1 e.2) :=
  same_in (fun e => by show structPlaces _ = _; rw [structPlaces]; rfl) fun e h => by show structSound _; rw [structSound]; exact h
theorem enumGenerics_in : ∀ s (e : At × GenericsCause), Within s e → Within s (EnumCause.generics e.1 e.2) :=
  same_in (fun e => by show enumPlaces _ = _; rw [enumPlaces]; rfl) fun e h => by show enumSound _; rw [enumSound]; trivial
theorem enumField_in : ∀ s (e : At × FieldsCause), Within s e → Within s (EnumCause.field e.1 e.2) :=
  same_in (fun e => by show enumPlaces _ = _; rw [enumPlaces]; rfl) fun e h => by show enumSound _; rw [enumSound]; exact h
theorem enumId_in : ∀ s (e : IdError), Within s e → Within s (EnumCause.id e) :=
  same_in (fun e => by show enumPlaces _ = _; rw [enumPlaces]) fun e h => by show enumSound _; rw [enumSound]; exact h
theorem structName_in : ∀ s (e : StructCause), Within s e → Within s (ImportCause.structName e) :=
  same_in (fun e => by show importPlaces _ = _; rw [importPlaces]; rfl) fun e h => by show importSound _; rw [importSound]; exact h
theorem enumName_in : ∀ s (e : EnumCause), Within s e → Within s (ImportCause.enumName e) :=
  same_in (fun e => by show importPlaces _ = _; rw [importPlaces]; rfl) fun e h => by show importSound _; rw [importSound]; exact h

theorem stays_structName : Stays (nameOr StructCause.invalidName isUpper isAlnum) :=
  stays_nameOr (fun s => by show structPlaces _ = _; rw [structPlaces]) (fun s => by show structSound _; rw [structSound]; trivial) _ _
theorem stays_enumName : Stays (nameOr EnumCause.invalidName isUpper isAlnum) :=
  stays_nameOr (fun s => by show enumPlaces _ = _; rw [enumPlaces]) (fun s => by show enumSound _; rw [enumSound]; trivial) _ _

theorem stays_parseStruct : Stays parseStruct :=
  stays_mapErrAt (stays_bind (stays_lit _) fun _ => stays_bind (stays_takeWhile _ _) fun _ => stays_cutErr
    (stays_bind stays_structName fun _ => stays_bind (stays_parseGenerics structGenerics_in) fun _ =>
      stays_bind (stays_sp (stays_mapErr stays_parseFields structFields_in)) fun _ => stays_pure _))
    fun s _ e _ he => ⟨cons_in (fromUntil_in _ _) he.1, he.2⟩

theorem stays_parseVariant : Stays parseVariant :=
  stays_bind stays_comments fun _ => stays_bind (stays_sp (stays_nameOr (fun s => by show enumPlaces _ = _; rw [enumPlaces])
      (fun s => by show enumSound _; rw [enumSound]; trivial) _ _)) fun _ =>
    stays_bind (stays_sp (stays_mapErr stays_parseFields enumField_in)) fun _ =>
    stays_bind (stays_opt (stays_sp (stays_mapErr stays_parseId enumId_in))) fun _ => stays_pure _

theorem stays_parseEnum : Stays parseEnum :=
  stays_mapErrAt (stays_bind (stays_lit _) fun _ => stays_bind (stays_takeWhile _ _) fun _ => stays_cutErr
    (stays_bind stays_enumName fun _ => stays_bind (stays_parseGenerics enumGenerics_in) fun _ =>
      stays_bind (stays_sp (stays_surround (stays_commaList stays_parseVariant))) fun _ => stays_pure _))
    fun s r e hr he => ⟨cons_in (atStop_in hr) he.1, he.2⟩

theorem stays_parseAlias : Stays parseAlias :=
  stays_mapErrAt (stays_bind (stays_lit _) fun _ => stays_bind (stays_takeWhile _ _) fun _ => stays_cutErr
    (stays_bind (stays_nameOr (fun _ => rfl) (fun _ => trivial) _ _) fun _ =>
      stays_bind (stays_parseGenerics (same_in (fun _ => rfl) fun _ _ => trivial)) fun _ =>
      stays_bind (stays_sp (stays_chr _)) fun _ =>
      stays_bind (stays_sp (stays_mapErr stays_parseType (same_in (fun _ => rfl) fun _ h => h))) fun _ =>
      stays_bind (stays_sp (stays_chr _)) fun _ => stays_pure _))
    fun s r e hr he => ⟨cons_in (atStop_in hr) he.1, he.2⟩

theorem stays_parseConst (std : Std) : Stays (parseConst std) :=
  stays_mapErrAt (stays_bind (stays_lit _) fun _ => stays_bind (stays_takeWhile _ _) fun _ => stays_cutErr
    (stays_bind (stays_nameOr (fun _ => rfl) (fun _ => trivial) _ _) fun _ =>
      stays_bind (stays_chr _) fun _ =>
      stays_bind (stays_sp (stays_mapErr stays_parseType (same_in (fun _ => rfl) fun _ h => h))) fun _ =>
      stays_bind (stays_sp (stays_chr _)) fun _ =>
      stays_bind (stays_sp (stays_mapErr (stays_parseLiteral std) (same_in (fun _ => rfl) fun _ _ => trivial))) fun _ =>
      stays_bind (stays_mapErrAt (E := Unit) (stays_chr _) fun s r _ hr _ => ⟨one_in hr, trivial⟩) fun _ => stays_pure _))
    fun s _ e _ he => ⟨cons_in (fromUntil_in _ _) he.1, he.2⟩

theorem stays_parseImport : Stays parseImport :=
  stays_mapErrAt (stays_bind (stays_lit _) fun _ => stays_bind (stays_takeWhile _ _) fun _ => stays_cutErr
    (stays_bind (stays_separated1 stays_parseSegment (stays_lit _)) fun _ =>
      stays_bind (stays_opt (stays_bind (stays_lit _) fun _ =>
        stays_alt (stays_mapErr stays_structName structName_in) (stays_mapErr stays_enumName enumName_in))) fun _ =>
      stays_bind (stays_chr _) fun _ => stays_pure _))
    fun s _ e _ he => ⟨cons_in (fromUntil_in _ _) he.1, he.2⟩

theorem moduleDefinition_in : ∀ s (e : DefinitionError), Within s e → Within s (ModuleCause.definition e) :=
  same_in (fun e => by show modulePlaces _ = _; rw [modulePlaces]; rfl) fun e h => by show moduleSound _; rw [moduleSound]; exact h

section
variable {rec : F DefinitionError Definition}

theorem stays_parseModule (h : Stays rec) : Stays (parseModule rec) :=
  stays_mapErrAt (stays_bind (stays_lit _) fun _ => stays_bind (stays_takeWhile _ _) fun _ => stays_cutErr
    (stays_bind (stays_nameOr (fun s => by show modulePlaces _ = _; rw [modulePlaces])
        (fun s => by show moduleSound _; rw [moduleSound]; trivial) _ _) fun _ =>
      stays_bind (stays_sp (stays_surround (stays_many (stays_ws (stays_mapErr h moduleDefinition_in))))) fun _ => stays_pure _))
    fun s _ e _ he => ⟨cons_in (fromUntil_in _ _) he.1, he.2⟩

theorem stays_defKind (std : Std) (h : Stays rec) : Stays (defKind std rec) :=
  stays_bind stays_peekAny fun _ =>
    stays_ite (stays_mapErr (stays_parseModule h) (same_in (fun e => by show definitionPlaces _ = _; rw [definitionPlaces]; rfl)
      fun e h => by show definitionSound _; rw [definitionSound]; exact h)) <|
    stays_ite (stays_bind (stays_mapErr stays_parseStruct (same_in
      (fun e => by show definitionPlaces _ = _; rw [definitionPlaces]; rfl)
      fun e h => by show definitionSound _; rw [definitionSound]; exact h)) fun _ => stays_pure _) <|
    stays_ite (stays_bind (stays_mapErr stays_parseEnum (same_in
      (fun e => by show definitionPlaces _ = _; rw [definitionPlaces]; rfl)
      fun e h => by show definitionSound _; rw [definitionSound]; exact h)) fun _ => stays_pure _) <|
    stays_ite (stays_bind (stays_mapErr (stays_parseConst std) (same_in
      (fun e => by show definitionPlaces _ = _; rw [definitionPlaces]; rfl)
      fun e h => by show definitionSound _; rw [definitionSound]; exact h)) fun _ => stays_pure _) <|
    stays_ite (stays_bind (stays_mapErr stays_parseAlias (same_in
      (fun e => by show definitionPlaces _ = _; rw [definitionPlaces]; rfl)
      fun e h => by show definitionSound _; rw [definitionSound]; exact h)) fun _ => stays_pure _) <|
    stays_ite (stays_bind (stays_mapErr stays_parseImport (same_in
      (fun e => by show definitionPlaces _ = _; rw [definitionPlaces]; rfl)
      fun e h => by show definitionSound _; rw [definitionSound]; exact h)) fun _ => stays_pure _) stays_fail

theorem stays_defBody (std : Std) (h : Stays rec) : Stays (defBody std rec) :=
  stays_bind stays_comments fun _ =>
    stays_bind (stays_ws (stays_mapErr (stays_parseAttributes std) (same_in
      (fun e => by show definitionPlaces _ = _; rw [definitionPlaces]; rfl)
      fun e h => by show definitionSound _; rw [definitionSound]; trivial))) fun _ =>
    stays_bind (stays_sp (stays_defKind std h)) fun _ => stays_pure _

end

theorem stays_defDepth (std : Std) : ∀ n, Stays (defDepth std n)
  | 0 => fun s => ⟨fun _ _ h => (nomatch h), fun _ _ _ h => by cases h; exact here_in s⟩
  | n + 1 => stays_defBody std (stays_defDepth std n)

theorem stays_parseDefinition (std : Std) : Stays (parseDefinition std) := fun s => stays_defDepth std _ s

theorem stays_schemaParser (std : Std) : Stays (schemaParser std) :=
  stays_bind (stays_opt (stays_bind stays_comments fun _ => stays_bind (stays_chr _) fun _ => stays_pure _)) fun _ =>
    stays_bind (stays_many (stays_mapErr (stays_parseDefinition std) (same_in (fun _ => rfl) fun _ h => h))) fun _ =>
    stays_bind (stays_takeWhile _ _) fun _ => stays_pure _

theorem stays_eof {E : Type} [Places E] [FromInput E] [Plain E] : Stays (eof : F E Unit) := fun s => by
  rw [eof]
  split
  · exact ⟨fun _ _ h => by cases h; exact List.suffix_refl _, fun _ _ _ h => (nomatch h)⟩
  · exact ⟨fun _ _ h => (nomatch h), fun _ _ _ h => by cases h; exact here_in s⟩

/-- All places of the error of a text are in the text. -/
theorem within_parseSchema (std : Std) {text : Text} {e : SchemaCause} (h : parseSchema std text = .error e) : Within text e := by
  unfold parseSchema at h
  have hs : Stays (do let s ← schemaParser std; eof; pure s : F SchemaCause Ast.Schema) :=
    stays_bind (stays_schemaParser std) fun _ => stays_bind stays_eof fun _ => stays_pure _
  cases hp : (do let s ← schemaParser std; eof; pure s : F SchemaCause Ast.Schema) text with
  | ok s r => rw [hp] at h; cases h
  | fail b e' r =>
    rw [hp] at h
    cases h
    exact ((hs text).2 _ _ _ hp).2

end Mabo.Failing
