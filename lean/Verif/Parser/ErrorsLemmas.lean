import Verif.Parser.Errors
import Verif.Parser.SchemaLemmas
/-! Without the errors, the parsers of `Parser/Errors.lean` are those of `Parser/Schema.lean`. -/
namespace Mabo.Failing
open Mabo.Parse (Text Res P Std isSpace isMulti isLower isUpper isDigit isAlnum)
open Mabo.Ast

/-- A result without the error. -/
def forget {E α : Type} : R E α → Res α
  | .ok a r => .ok a r
  | .fail false _ _ => .back
  | .fail true _ _ => .cut

/-- `q` is `p` without the errors. -/
def Sim {E α : Type} (p : F E α) (q : P α) : Prop := ∀ s, forget (p s) = q s

theorem bind_run {E α β : Type} (p : F E α) (f : α → F E β) (s : Text) :
    (p >>= f) s = match p s with | .ok a r => f a r | .fail b e r => .fail b e r := rfl

theorem pure_run {E α : Type} (a : α) (s : Text) : (pure a : F E α) s = .ok a s := rfl

section
variable {E E' α β : Type}

theorem sim_bind {p : F E α} {q : P α} {f : α → F E β} {g : α → P β} (hp : Sim p q) (hf : ∀ a, Sim (f a) (g a)) :
    Sim (p >>= f) (q >>= g) := fun s => by
  rw [bind_run, Parse.bind_run, ← hp s]
  cases p s with
  | ok a r => exact hf a r
  | fail b e r => cases b <;> rfl

theorem sim_pure (a : α) : Sim (pure a : F E α) (pure a) := fun _ => rfl

theorem sim_fail [FromInput E] : Sim (fail : F E α) Parse.fail := fun _ => rfl

theorem sim_mapErr {f : E → E'} {p : F E α} {q : P α} (hp : Sim p q) : Sim (mapErr f p) q := fun s => by
  rw [← hp s, mapErr]
  cases p s with
  | ok a r => rfl
  | fail b e r => cases b <;> rfl

theorem sim_mapErrAt {f : Text → Text → E → E'} {p : F E α} {q : P α} (hp : Sim p q) : Sim (mapErrAt f p) q := fun s => by
  rw [← hp s, mapErrAt]
  cases p s with
  | ok a r => rfl
  | fail b e r => cases b <;> rfl

theorem sim_cutErr {p : F E α} {q : P α} (hp : Sim p q) : Sim (cutErr p) (Parse.cutErr q) := fun s => by
  rw [Parse.cutErr, ← hp s, cutErr]
  cases p s with
  | ok a r => rfl
  | fail b e r => cases b <;> rfl

theorem sim_opt {p : F E α} {q : P α} (hp : Sim p q) : Sim (opt p) (Parse.opt q) := fun s => by
  rw [Parse.opt, ← hp s, opt]
  cases p s with
  | ok a r => rfl
  | fail b e r => cases b <;> rfl

theorem sim_alt {p p' : F E α} {q q' : P α} (hp : Sim p q) (hp' : Sim p' q') : Sim (alt p p') (Parse.alt q q') := fun s => by
  rw [Parse.alt, ← hp s, alt]
  cases p s with
  | ok a r => rfl
  | fail b e r => cases b with
    | false => exact hp' s
    | true => rfl

variable [FromInput E]

theorem sim_lit (w : String) : Sim (lit w : F E Unit) (Parse.lit w) := fun s => by
  rw [Parse.lit, lit]
  cases Parse.dropPrefix w.toList s <;> rfl

theorem sim_oneOf (f : Char → Bool) : Sim (oneOf f : F E Char) (Parse.oneOf f) := fun s => by
  cases s with
  | nil => rfl
  | cons d r =>
    by_cases h : f d = true
    · simp only [oneOf, Parse.oneOf, if_pos h, forget]
    · simp only [oneOf, Parse.oneOf, if_neg h, forget]

theorem sim_chr (c : Char) : Sim (chr c : F E Unit) (Parse.chr c) := fun s => by
  cases s with
  | nil => rfl
  | cons d r =>
    by_cases h : d = c
    · simp only [chr, Parse.chr, if_pos h, forget]
    · simp only [chr, Parse.chr, if_neg h, forget]

theorem sim_peekAny : Sim (peekAny : F E Char) Parse.peekAny := fun s => by cases s <;> rfl

theorem sim_takeWhile (n : Nat) (f : Char → Bool) : Sim (takeWhile n f : F E Text) (Parse.takeWhile n f) := fun s => by
  by_cases h : (s.takeWhile f).length < n
  · simp only [takeWhile, Parse.takeWhile, if_pos h, forget]
  · simp only [takeWhile, Parse.takeWhile, if_neg h, forget]

theorem sim_takeWhileMax (n m : Nat) (f : Char → Bool) : Sim (takeWhileMax n m f : F E Text) (Parse.takeWhileMax n m f) :=
  fun s => by
  by_cases h : ((s.takeWhile f).take m).length < n
  · simp only [takeWhileMax, Parse.takeWhileMax, if_pos h, forget]
  · simp only [takeWhileMax, Parse.takeWhileMax, if_neg h, forget]

theorem sim_sp {p : F E α} {q : P α} (hp : Sim p q) : Sim (sp p) (Parse.sp q) := sim_bind (sim_takeWhile _ _) fun _ => hp
theorem sim_ws {p : F E α} {q : P α} (hp : Sim p q) : Sim (ws p) (Parse.ws q) := sim_bind (sim_takeWhile _ _) fun _ => hp

theorem sim_manyAux {p : F E α} {q : P α} (hp : Sim p q) : ∀ n s, forget (manyAux p n s) = Parse.manyAux q n s
  | 0, _ => rfl
  | n + 1, s => by
    rw [manyAux, Parse.manyAux, ← hp s]
    cases p s with
    | fail b e r => cases b <;> rfl
    | ok a r =>
      simp only [forget]
      by_cases hl : r.length = s.length
      · rw [if_pos hl, if_pos hl]
      · rw [if_neg hl, if_neg hl, ← sim_manyAux hp n r]
        cases manyAux p n r with
        | ok as r => rfl
        | fail b e r => cases b <;> rfl

theorem sim_many {p : F E α} {q : P α} (hp : Sim p q) : Sim (many p) (Parse.many q) := fun s => sim_manyAux hp _ s

theorem sim_many1 {p : F E α} {q : P α} (hp : Sim p q) : Sim (many1 p) (Parse.many1 q) :=
  sim_bind hp fun _ => sim_bind (sim_many hp) fun _ => sim_pure _

theorem sim_separated1 {p : F E α} {q : P α} {p' : F E β} {q' : P β} (hp : Sim p q) (hs : Sim p' q') :
    Sim (separated1 p p') (Parse.separated1 q q') :=
  sim_bind hp fun _ => sim_bind (sim_many (sim_bind hs fun _ => hp)) fun _ => sim_pure _

theorem punctuateAux_succ (f : F E α) (g : F E (α × Bool)) (n : Nat) (acc : List α) (prev : Option (Text × List α)) (s : Text) :
    punctuateAux f g (n + 1) acc prev s =
    match f s with
    | .ok a r => if r.length = s.length then .fail true (parser r) r else punctuateAux f g n (a :: acc) (some (s, acc)) r
    | .fail true e r => .fail true e r
    | .fail false _ _ =>
      match g s with
      | .ok (a, t) r => .ok ((a :: acc).reverse, t) r
      | .fail true e r => .fail true e r
      | .fail false e r =>
        match prev with
        | none => .fail false e r
        | some (s', acc') =>
          match g s' with
          | .ok (a, t) r => .ok ((a :: acc').reverse, t) r
          | .fail b e r => .fail b e r := rfl

theorem sim_punctuateAux {f : F E α} {g : F E (α × Bool)} {f' : P α} {g' : P (α × Bool)} (hf : Sim f f') (hg : Sim g g') :
    ∀ n acc prev s, forget (punctuateAux f g n acc prev s) = Parse.punctuateAux f' g' n acc prev s
  | 0, _, _, _ => rfl
  | n + 1, acc, prev, s => by
    rw [punctuateAux_succ, Parse.punctuateAux_succ, ← hf s, ← hg s]
    cases f s with
    | ok a r =>
      show forget (if _ then _ else _) = (if _ then _ else _)
      by_cases hl : r.length = s.length
      · rw [if_pos hl, if_pos hl]; rfl
      · rw [if_neg hl, if_neg hl, ← sim_punctuateAux hf hg n]
    | fail b e r => cases b with
      | true => rfl
      | false =>
        simp only [forget]
        cases g s with
        | ok a r => rfl
        | fail b e r => cases b with
          | true => rfl
          | false =>
            simp only []
            cases prev with
            | none => rfl
            | some x =>
              obtain ⟨s', acc'⟩ := x
              simp only []
              rw [← hg s']
              cases g s' with
              | ok a r => rfl
              | fail b e r => cases b <;> rfl

theorem sim_commaList {p : F E α} {q : P α} (hp : Sim p q) : Sim (commaList p) (Parse.commaList q) := fun s =>
  sim_punctuateAux (sim_bind hp fun _ => sim_bind (sim_ws (sim_chr _)) fun _ => sim_pure _)
    (sim_bind hp fun _ => sim_bind (sim_opt (sim_ws (sim_chr _))) fun _ => sim_pure _) _ _ _ s

theorem sim_surround {o c : Char} {p : F E α} {q : P α} (hp : Sim p q) : Sim (surround o c p) (Parse.surround o c q) :=
  sim_bind (sim_chr _) fun _ => sim_cutErr (sim_bind hp fun _ => sim_bind (sim_ws (sim_chr _)) fun _ => sim_pure _)

theorem sim_name (head tail : Char → Bool) : Sim (name head tail : F E String) (Parse.name head tail) :=
  sim_bind (sim_oneOf _) fun _ => sim_bind (sim_takeWhile _ _) fun _ => sim_pure _

omit [FromInput E] in
theorem sim_taken {p : F E α} {q : P α} (hp : Sim p q) : Sim (taken p) (Parse.taken q) := fun s => by
  rw [Parse.taken, ← hp s, taken]
  cases p s with
  | ok a r => rfl
  | fail b e r => cases b <;> rfl

end

/-- A parser without final errors. -/
def Soft {α : Type} (p : P α) : Prop := ∀ s, p s ≠ .cut

theorem soft_bind {α β : Type} {p : P α} {f : α → P β} (hp : Soft p) (hf : ∀ a, Soft (f a)) : Soft (p >>= f) := fun s => by
  rw [Parse.bind_run]
  cases h : p s with
  | ok a r => exact hf a r
  | back => exact fun h => (nomatch h)
  | cut => exact absurd h (hp s)

theorem soft_pure {α : Type} (a : α) : Soft (pure a : P α) := fun _ h => (nomatch h)

theorem soft_oneOf (f : Char → Bool) : Soft (Parse.oneOf f) := fun s h => by
  cases s with
  | nil => cases h
  | cons c s => rw [Parse.oneOf] at h; split at h <;> cases h

theorem soft_takeWhile (n : Nat) (f : Char → Bool) : Soft (Parse.takeWhile n f) := fun s h => by
  rw [Parse.takeWhile] at h; split at h <;> cases h

theorem soft_alt {α : Type} {p q : P α} (hp : Soft p) (hq : Soft q) : Soft (Parse.alt p q) := fun s => by
  rw [Parse.alt]
  cases h : p s with
  | ok a r => exact fun h => (nomatch h)
  | back => exact hq s
  | cut => exact absurd h (hp s)

/-- `dec_uint` has no final errors. -/
theorem decUint_ne_cut (b : Nat) : Soft (Parse.decUint b) := fun s h => by
  unfold Parse.decUint at h
  split at h
  · split at h <;> cases h
  · cases h
  · rename_i hc
    exact soft_alt (soft_bind (soft_oneOf _) fun _ => soft_bind (soft_takeWhile _ _) fun _ => soft_pure _)
      (soft_bind (soft_oneOf _) fun _ => soft_pure _) s hc

theorem sim_decUint {E : Type} [FromInput E] (b : Nat) : Sim (decUint b : F E Nat) (Parse.decUint b) := fun s => by
  have := decUint_ne_cut b s
  rw [decUint]
  cases h : Parse.decUint b s with
  | ok n r => rfl
  | back => rfl
  | cut => exact absurd h this

/-! ### Types -/

section
variable {rec : F (At × TypeCause) DataType} {q : P DataType}

theorem sim_nameOr {E : Type} (cause : Text → E) (head tail : Char → Bool) : Sim (nameOr cause head tail) (Parse.name head tail) :=
  sim_mapErrAt (sim_name _ _)

theorem sim_parseBasic : Sim parseBasic Parse.parseBasic := by
  refine sim_alt (sim_bind (sim_takeWhile _ _) fun w => ?_) (sim_alt (sim_bind (sim_lit _) fun _ => sim_pure _)
    (sim_bind (sim_lit _) fun _ => sim_pure _))
  cases Parse.basicOf (String.ofList w) with
  | none => exact sim_fail
  | some p => exact sim_pure _

theorem sim_inner (h : Sim rec q) : Sim (inner rec) q := sim_mapErr h

theorem sim_parseSingle (h : Sim rec q) : Sim (parseSingle rec) (Parse.parseSingle q) := sim_cutErr (sim_surround (sim_inner h))

theorem sim_parsePair (h : Sim rec q) : Sim (parsePair rec) (Parse.parsePair q) :=
  sim_cutErr (sim_surround (sim_bind (sim_inner h) fun _ => sim_bind (sim_sp (sim_chr _)) fun _ =>
    sim_bind (sim_sp (sim_inner h)) fun _ => sim_pure _))

theorem sim_ite {E α : Type} {c : Prop} [Decidable c] {p p' : F E α} {q q' : P α} (h : Sim p q) (h' : Sim p' q') :
    Sim (if c then p else p') (if c then q else q') := by by_cases hc : c <;> simp only [hc, if_true, if_false] <;> assumption

theorem sim_parseGeneric (h : Sim rec q) : Sim (parseGeneric rec) (Parse.parseGeneric q) :=
  sim_bind (sim_takeWhile _ _) fun _ =>
    sim_ite (sim_bind (sim_parseSingle h) fun _ => sim_pure _) <|
    sim_ite (sim_bind (sim_parsePair h) fun _ => sim_pure _) <|
    sim_ite (sim_bind (sim_parseSingle h) fun _ => sim_pure _) <|
    sim_ite (sim_bind (sim_parseSingle h) fun _ => sim_pure _) <|
    sim_ite (sim_bind (sim_parseSingle h) fun _ => sim_pure _) sim_fail

theorem sim_parseTuple (h : Sim rec q) : Sim (parseTuple rec) (Parse.parseTuple q) :=
  sim_bind (sim_surround (sim_commaList (sim_ws (sim_inner h)))) fun _ => sim_pure _

theorem sim_parseArray (h : Sim rec q) : Sim (parseArray rec) (Parse.parseArray q) :=
  sim_bind (sim_surround (sim_bind (sim_ws (sim_inner h)) fun _ => sim_bind (sim_ws (sim_chr _)) fun _ =>
    sim_bind (sim_ws (sim_decUint _)) fun _ => sim_pure _)) fun _ => sim_pure _

theorem sim_parseExternal (h : Sim rec q) : Sim (parseExternal rec) (Parse.parseExternal q) := by
  refine sim_bind (sim_opt (sim_many1 (sim_bind (sim_mapErr (sim_nameOr _ _ _)) fun _ => sim_bind (sim_lit _) fun _ => sim_pure _)))
    fun _ => sim_bind (sim_name _ _) fun _ => sim_bind (sim_opt (sim_surround (sim_commaList (sim_ws (sim_inner h))))) fun g => ?_
  cases g with
  | none => exact sim_pure _
  | some g => exact sim_pure _

theorem sim_typeBody (h : Sim rec q) : Sim (typeBody rec) (Parse.typeBody q) :=
  sim_mapErrAt <| sim_alt sim_parseBasic <| sim_alt (sim_parseGeneric h) <| sim_alt (sim_parseTuple h) <|
    sim_alt (sim_parseArray h) (sim_parseExternal h)

theorem sim_typeDepth : ∀ n, Sim (typeDepth n) (Parse.typeDepth n)
  | 0 => fun _ => rfl
  | n + 1 => sim_typeBody (sim_typeDepth n)

theorem sim_parseType : Sim parseType Parse.parseType := fun s => sim_typeDepth _ s

end

theorem sim_parseId : Sim parseId Parse.parseId :=
  sim_mapErrAt (sim_bind (sim_chr _) fun _ => sim_bind (sim_decUint _) fun _ => sim_pure _)

/-! ### Literals -/

theorem sim_optSign {E : Type} [FromInput E] : Sim (optSign : F E _) Parse.optSign := sim_opt (sim_oneOf _)

theorem sim_parseFloat (std : Std) : Sim (parseFloat std) (Parse.parseFloat std) :=
  sim_bind (sim_taken (sim_bind sim_optSign fun _ => sim_bind (sim_takeWhile _ _) fun _ => sim_bind (sim_chr _) fun _ =>
    sim_bind (sim_takeWhile _ _) fun _ => sim_bind (sim_opt (sim_bind (sim_oneOf _) fun _ => sim_bind sim_optSign fun _ =>
      sim_cutErr (sim_takeWhile _ _))) fun _ => sim_pure _)) fun _ => sim_pure _

theorem sim_intText : Sim intText Parse.parseInt := fun s => by
  refine sim_bind sim_optSign (fun sign => sim_bind (sim_takeWhile _ _) fun ds => ?_) s
  exact sim_ite (sim_pure _) fun _ => rfl

theorem sim_parseInt : Sim parseInt Parse.parseInt := sim_mapErrAt sim_intText

theorem sim_parseUnicode : Sim parseUnicode Parse.parseUnicode := fun s => by
  refine sim_bind (sim_chr _) (fun _ => sim_bind (sim_cutErr (sim_bind (sim_chr _) fun _ =>
    sim_bind (sim_takeWhileMax _ _ _) fun _ => sim_bind (sim_chr _) fun _ => sim_pure _)) fun ds => ?_) s
  cases Parse.charOf (Parse.hexVal ds) with
  | none => exact fun _ => rfl
  | some c => exact sim_pure _

theorem sim_escapedChar : Sim escapedChar Parse.escapedChar :=
  have h (c d : Char) : Sim (do chr c; pure d : F LiteralCause Char) (do Parse.chr c; pure d) :=
    sim_bind (sim_chr _) fun _ => sim_pure _
  sim_bind sim_peekAny fun _ => sim_ite (h _ _) <| sim_ite (h _ _) <| sim_ite (h _ _) <| sim_ite (h _ _) <|
    sim_ite (h _ _) <| sim_ite (h _ _) <| sim_ite (h _ _) <| sim_ite (h _ _) <| sim_ite (h _ _) <|
    sim_ite sim_parseUnicode sim_fail

theorem sim_parseFragment : Sim parseFragment Parse.parseFragment :=
  sim_alt (sim_takeWhile _ _) (sim_alt (sim_bind (sim_chr _) fun _ => sim_bind sim_escapedChar fun _ => sim_pure _)
    (sim_bind (sim_chr _) fun _ => sim_bind (sim_takeWhile _ _) fun _ => sim_pure _))

theorem sim_parseString : Sim parseString Parse.parseString :=
  sim_bind (sim_chr _) fun _ => sim_bind (sim_cutErr (sim_bind (sim_many sim_parseFragment) fun _ =>
    sim_bind (sim_chr _) fun _ => sim_pure _)) fun _ => sim_pure _

theorem sim_parseBytes : Sim parseBytes Parse.parseBytes :=
  sim_bind (sim_chr _) fun _ => sim_bind (sim_cutErr (sim_bind (sim_separated1 (sim_ws (sim_decUint _)) (sim_ws (sim_chr _)))
    fun _ => sim_bind (sim_opt (sim_ws (sim_chr _))) fun _ => sim_bind (sim_ws (sim_chr _)) fun _ => sim_pure _)) fun _ => sim_pure _

theorem sim_parseLiteral (std : Std) : Sim (parseLiteral std) (Parse.parseLiteral std) :=
  sim_mapErrAt <| sim_bind sim_peekAny fun _ => sim_ite (sim_bind (sim_lit _) fun _ => sim_pure _) <|
    sim_ite (sim_bind (sim_lit _) fun _ => sim_pure _) <| sim_ite (sim_cutErr (sim_alt (sim_parseFloat std) sim_parseInt)) <|
    sim_ite sim_parseString <| sim_ite sim_parseBytes sim_fail

/-! ### Comments and attributes -/

theorem sim_commentLine : Sim commentLine Parse.commentLine :=
  sim_bind (sim_takeWhile _ _) fun _ => sim_bind (sim_lit _) fun _ => sim_bind (sim_takeWhile _ _) fun _ =>
    sim_bind (sim_takeWhile _ _) fun _ => sim_bind (sim_chr _) fun _ => sim_pure _

theorem sim_parseComments : Sim parseComments Parse.parseComments := sim_mapErrAt (sim_many sim_commentLine)

section
variable {rec : F AttributeCause Attribute} {q : P Attribute}

theorem sim_attrList {close : Char} (h : Sim rec q) : Sim (attrList close rec) (Parse.attrList close q) :=
  sim_bind (sim_separated1 (sim_ws h) (sim_ws (sim_chr _))) fun _ => sim_bind (sim_opt (sim_chr _)) fun _ =>
    sim_bind (sim_ws (sim_chr _)) fun _ => sim_pure _

theorem sim_attrSingle (std : Std) (n : String) : Sim (attrSingle std n) (Parse.attrSingle std n) :=
  sim_bind (sim_takeWhile _ _) fun _ => sim_bind (sim_chr _) fun _ => sim_bind (sim_takeWhile _ _) fun _ =>
    sim_bind (sim_mapErr (sim_parseLiteral std)) fun _ => sim_pure _

theorem sim_attrBody (std : Std) (h : Sim rec q) : Sim (attrBody std rec) (Parse.attrBody std q) :=
  sim_bind (sim_name _ _) fun _ => sim_alt (sim_bind (sim_chr _) fun _ => sim_bind (sim_cutErr (sim_attrList h)) fun _ =>
    sim_pure _) (sim_alt (sim_attrSingle _ _) (sim_pure _))

theorem sim_attrDepth (std : Std) : ∀ n, Sim (attrDepth std n) (Parse.attrDepth std n)
  | 0 => fun _ => rfl
  | n + 1 => sim_attrBody std (sim_attrDepth std n)

theorem sim_parseAttr (std : Std) : Sim (parseAttr std) (Parse.parseAttr std) := fun s => sim_attrDepth std _ s

theorem sim_parseAttribute (std : Std) : Sim (parseAttribute std) (Parse.parseAttribute std) :=
  sim_bind (sim_lit _) fun _ => sim_bind (sim_chr _) fun _ => sim_cutErr (sim_attrList (sim_parseAttr std))

theorem sim_parseAttributes (std : Std) : Sim (parseAttributes std) (Parse.parseAttributes std) :=
  sim_mapErrAt (sim_bind (sim_many (sim_bind (sim_parseAttribute std) fun _ => sim_bind (sim_chr _) fun _ => sim_pure _)) fun _ =>
    sim_pure _)

end

/-! ### Definitions -/

theorem sim_optId {E : Type} [FromInput E] {f : IdError → E} : Sim (opt (sp (mapErr f parseId))) Parse.optId :=
  sim_opt (sim_sp (sim_mapErr sim_parseId))

theorem sim_parseNamedField : Sim parseNamedField Parse.parseNamedField :=
  sim_bind (sim_ws (sim_mapErr sim_parseComments)) fun _ => sim_bind (sim_sp (sim_nameOr _ _ _)) fun _ =>
    sim_bind (sim_sp (sim_chr _)) fun _ => sim_bind (sim_sp (sim_mapErr sim_parseType)) fun _ => sim_bind sim_optId fun _ =>
      sim_pure _

theorem sim_parseUnnamedField : Sim parseUnnamedField Parse.parseUnnamedField :=
  sim_bind (sim_ws (sim_mapErr sim_parseType)) fun _ => sim_bind sim_optId fun _ => sim_pure _

theorem sim_parseFields : Sim parseFields Parse.parseFields :=
  sim_mapErrAt <| sim_bind sim_peekAny fun _ =>
    sim_ite (sim_bind (sim_surround (sim_commaList sim_parseNamedField)) fun _ => sim_pure _) <|
    sim_ite (sim_bind (sim_surround (sim_commaList sim_parseUnnamedField)) fun _ => sim_pure _) (sim_pure _)

theorem sim_parseGenerics {E : Type} (f : At × GenericsCause → E) : Sim (parseGenerics f) Parse.parseGenerics :=
  sim_bind (sim_opt (sim_mapErr (sim_mapErrAt (sim_surround (sim_commaList (sim_ws (sim_nameOr _ _ _))))))) fun _ => sim_pure _

theorem sim_parseStruct : Sim parseStruct Parse.parseStruct :=
  sim_mapErrAt <| sim_bind (sim_lit _) fun _ => sim_bind (sim_takeWhile _ _) fun _ => sim_cutErr <|
    sim_bind (sim_nameOr _ _ _) fun _ => sim_bind (sim_parseGenerics _) fun _ =>
      sim_bind (sim_sp (sim_mapErr sim_parseFields)) fun _ => sim_pure _

theorem sim_parseVariant : Sim parseVariant Parse.parseVariant :=
  sim_bind (sim_ws (sim_mapErr sim_parseComments)) fun _ => sim_bind (sim_sp (sim_nameOr _ _ _)) fun _ =>
    sim_bind (sim_sp (sim_mapErr sim_parseFields)) fun _ => sim_bind sim_optId fun _ => sim_pure _

theorem sim_parseEnum : Sim parseEnum Parse.parseEnum :=
  sim_mapErrAt <| sim_bind (sim_lit _) fun _ => sim_bind (sim_takeWhile _ _) fun _ => sim_cutErr <|
    sim_bind (sim_nameOr _ _ _) fun _ => sim_bind (sim_parseGenerics _) fun _ =>
      sim_bind (sim_sp (sim_surround (sim_commaList sim_parseVariant))) fun _ => sim_pure _

theorem sim_parseAlias : Sim parseAlias Parse.parseAlias :=
  sim_mapErrAt <| sim_bind (sim_lit _) fun _ => sim_bind (sim_takeWhile _ _) fun _ => sim_cutErr <|
    sim_bind (sim_nameOr _ _ _) fun _ => sim_bind (sim_parseGenerics _) fun _ => sim_bind (sim_sp (sim_chr _)) fun _ =>
      sim_bind (sim_sp (sim_mapErr sim_parseType)) fun _ => sim_bind (sim_sp (sim_chr _)) fun _ => sim_pure _

theorem sim_parseConst (std : Std) : Sim (parseConst std) (Parse.parseConst std) :=
  sim_mapErrAt <| sim_bind (sim_lit _) fun _ => sim_bind (sim_takeWhile _ _) fun _ => sim_cutErr <|
    sim_bind (sim_nameOr _ _ _) fun _ => sim_bind (sim_chr _) fun _ => sim_bind (sim_sp (sim_mapErr sim_parseType)) fun _ =>
      sim_bind (sim_sp (sim_chr _)) fun _ => sim_bind (sim_sp (sim_mapErr (sim_parseLiteral std))) fun _ =>
        sim_bind (sim_mapErrAt (sim_chr _)) fun _ => sim_pure _

theorem sim_parseImport : Sim parseImport Parse.parseImport :=
  sim_mapErrAt <| sim_bind (sim_lit _) fun _ => sim_bind (sim_takeWhile _ _) fun _ => sim_cutErr <|
    sim_bind (sim_separated1 (sim_nameOr _ _ _) (sim_lit _)) fun _ =>
      sim_bind (sim_opt (sim_bind (sim_lit _) fun _ => sim_alt (sim_mapErr (sim_nameOr _ _ _)) (sim_mapErr (sim_nameOr _ _ _)))) fun _ =>
        sim_bind (sim_chr _) fun _ => sim_pure _

section
variable {rec : F DefinitionError Definition} {q : P Definition}

theorem sim_parseModule (h : Sim rec q) : Sim (parseModule rec) (Parse.parseModule q) :=
  sim_mapErrAt <| sim_bind (sim_lit _) fun _ => sim_bind (sim_takeWhile _ _) fun _ => sim_cutErr <|
    sim_bind (sim_nameOr _ _ _) fun _ => sim_bind (sim_sp (sim_surround (sim_many (sim_ws (sim_mapErr h))))) fun _ => sim_pure _

theorem sim_defKind (std : Std) (h : Sim rec q) : Sim (defKind std rec) (Parse.defKind std q) :=
  sim_bind sim_peekAny fun _ => sim_ite (sim_mapErr (sim_parseModule h)) <|
    sim_ite (sim_bind (sim_mapErr sim_parseStruct) fun _ => sim_pure _) <|
    sim_ite (sim_bind (sim_mapErr sim_parseEnum) fun _ => sim_pure _) <|
    sim_ite (sim_bind (sim_mapErr (sim_parseConst std)) fun _ => sim_pure _) <|
    sim_ite (sim_bind (sim_mapErr sim_parseAlias) fun _ => sim_pure _) <|
    sim_ite (sim_bind (sim_mapErr sim_parseImport) fun _ => sim_pure _) sim_fail

theorem sim_defBody (std : Std) (h : Sim rec q) : Sim (defBody std rec) (Parse.defBody std q) :=
  sim_bind (sim_ws (sim_mapErr sim_parseComments)) fun _ => sim_bind (sim_ws (sim_mapErr (sim_parseAttributes std))) fun _ =>
    sim_bind (sim_sp (sim_defKind std h)) fun _ => sim_pure _

theorem sim_defDepth (std : Std) : ∀ n, Sim (defDepth std n) (Parse.defDepth std n)
  | 0 => fun _ => rfl
  | n + 1 => sim_defBody std (sim_defDepth std n)

theorem sim_parseDefinition (std : Std) : Sim (parseDefinition std) (Parse.parseDefinition std) := fun s => sim_defDepth std _ s

end

theorem sim_schemaParser (std : Std) : Sim (schemaParser std) (Parse.schemaParser std) :=
  sim_bind (sim_opt (sim_bind (sim_ws (sim_mapErr sim_parseComments)) fun _ => sim_bind (sim_chr _) fun _ => sim_pure _)) fun _ =>
    sim_bind (sim_many (sim_mapErr (sim_parseDefinition std))) fun _ => sim_bind (sim_takeWhile _ _) fun _ => sim_pure _

/-- The parser with errors accepts the same texts, with the same results. -/
theorem parseSchema_same (std : Std) (text : Text) : (parseSchema std text).toOption = Parse.parseSchema std text := by
  have h := sim_schemaParser std text
  rw [Parse.parseSchema, ← h, parseSchema, bind_run]
  cases schemaParser std text with
  | ok s r =>
    simp only [bind_run, eof, forget]
    by_cases hr : r = []
    · subst hr; rfl
    · rw [if_neg hr]
      cases r with
      | nil => exact absurd rfl hr
      | cons c r => rfl
  | fail b e r => cases b <;> rfl

end Mabo.Failing
