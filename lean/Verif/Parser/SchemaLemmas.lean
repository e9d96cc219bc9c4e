import Verif.Parser.Schema
import Verif.Parser.LiteralsLemmas
/-! The definition parsers never give back input, and their recursion unfolds. -/
namespace Mabo.Parse
open Mabo.Ast Mabo.Spec

theorem mono_peekAny : Mono peekAny := fun s a r h => by
  cases s with
  | nil => cases h
  | cons c s => injection h with _ h; rw [← h]; exact Nat.le_refl _

theorem mono_taken {α : Type} {p : P α} (hp : Mono p) : Mono (taken p) := fun s a r h => by
  unfold taken at h
  cases h1 : p s with
  | ok b m => rw [h1] at h; injection h with _ h; rw [← h]; exact hp _ _ _ h1
  | back => rw [h1] at h; cases h
  | cut => rw [h1] at h; cases h

theorem mono_optSign : Mono optSign := mono_opt (mono_oneOf _)

theorem mono_parseLiteral (std : Std) : Mono (parseLiteral std) := by
  refine mono_bind mono_peekAny fun c => ?_
  split
  · exact mono_bind (mono_lit _) fun _ => mono_pure _
  split
  · exact mono_bind (mono_lit _) fun _ => mono_pure _
  split
  · refine mono_cutErr (mono_alt ?_ ?_)
    · refine mono_bind (mono_taken ?_) fun _ => mono_pure _
      exact mono_bind mono_optSign fun _ => mono_bind (mono_takeWhile _ _) fun _ => mono_bind (mono_chr _) fun _ =>
        mono_bind (mono_takeWhile _ _) fun _ => mono_bind (mono_opt (mono_bind (mono_oneOf _) fun _ =>
          mono_bind mono_optSign fun _ => mono_cutErr (mono_takeWhile _ _))) fun _ => mono_pure _
    · refine mono_bind mono_optSign fun _ => mono_bind (mono_takeWhile _ _) fun _ => ?_
      simp only []
      split
      · exact mono_pure _
      · exact mono_fail
  split
  · exact mono_bind (mono_chr _) fun _ => mono_bind (mono_cutErr (mono_bind (mono_many (eats_mono eats_parseFragment))
      fun _ => mono_bind (mono_chr _) fun _ => mono_pure _)) fun _ => mono_pure _
  split
  · exact mono_bind (mono_chr _) fun _ => mono_bind (mono_cutErr (mono_bind (mono_separated1
      (mono_ws (mono_decUint _)) (mono_ws (mono_chr _))) fun _ => mono_bind (mono_opt (mono_ws (mono_chr _))) fun _ =>
        mono_bind (mono_ws (mono_chr _)) fun _ => mono_pure _)) fun _ => mono_pure _
  · exact mono_fail

theorem eats_commentLine : Eats commentLine :=
  eats_bind_right (mono_takeWhile _ _) fun _ => eats_bind_left (eats_lit (by decide)) fun _ =>
    mono_bind (mono_takeWhile _ _) fun _ => mono_bind (mono_takeWhile _ _) fun _ => mono_bind (mono_chr _) fun _ =>
      mono_pure _

theorem mono_parseComments : Mono parseComments := mono_many (eats_mono eats_commentLine)

/-! ### Attributes -/

theorem mono_attrList {close : Char} {rec : P Attribute} (h : Mono rec) : Mono (attrList close rec) :=
  mono_bind (mono_separated1 (mono_ws h) (mono_ws (mono_chr _))) fun _ => mono_bind (mono_opt (mono_chr _)) fun _ =>
    mono_bind (mono_ws (mono_chr _)) fun _ => mono_pure _

theorem mono_attrSingle (std : Std) (n : String) : Mono (attrSingle std n) :=
  mono_bind (mono_takeWhile _ _) fun _ => mono_bind (mono_chr _) fun _ => mono_bind (mono_takeWhile _ _) fun _ =>
    mono_bind (mono_parseLiteral std) fun _ => mono_pure _

theorem eats_attrBody (std : Std) {rec : P Attribute} (h : Mono rec) : Eats (attrBody std rec) :=
  eats_bind_left (eats_name _ _) fun _ => mono_alt (mono_bind (mono_chr _) fun _ =>
    mono_bind (mono_cutErr (mono_attrList h)) fun _ => mono_pure _) (mono_alt (mono_attrSingle std _) (mono_pure _))

theorem mono_attrDepth (std : Std) : ∀ n, Mono (attrDepth std n)
  | 0 => fun _ _ _ h => by cases h
  | n + 1 => eats_mono (eats_attrBody std (mono_attrDepth std n))

theorem agree_separated1 {α β : Type} {n : Nat} {p q : P α} {sep : P β} (h : Agree n p q) (hm : Mono p)
    (hs : Mono sep) : Agree n (separated1 p sep) (separated1 q sep) :=
  agree_bind h hm fun _ => agree_bind (agree_many (agree_bind (agree_refl _ _) hs fun _ => h) (mono_bind hs fun _ => hm))
    (mono_many (mono_bind hs fun _ => hm)) fun _ => agree_refl _ _

theorem agree_attrList {n : Nat} {close : Char} {p q : P Attribute} (h : Agree n p q) (hm : Mono p) :
    Agree n (attrList close p) (attrList close q) :=
  agree_bind (agree_separated1 (agree_ws h) (mono_ws hm) (mono_ws (mono_chr _)))
    (mono_separated1 (mono_ws hm) (mono_ws (mono_chr _))) fun _ => agree_refl _ _

theorem agree_attrBody (std : Std) {n : Nat} {p q : P Attribute} (h : Agree n p q) (hm : Mono p) :
    Agree (n + 1) (attrBody std p) (attrBody std q) :=
  agree_eats (eats_name _ _) fun _ => agree_alt (agree_bind (agree_refl _ _) (mono_chr _) fun _ =>
    agree_bind (agree_cutErr (agree_attrList h hm)) (mono_cutErr (mono_attrList hm)) fun _ => agree_refl _ _)
    (agree_refl _ _)

theorem agree_attrDepth (std : Std) : ∀ n m, n ≤ m → Agree n (attrDepth std n) (attrDepth std m)
  | 0, _, _ => fun _ h => by omega
  | n + 1, 0, h => by omega
  | n + 1, m + 1, h => agree_attrBody std (agree_attrDepth std n m (by omega)) (mono_attrDepth std n)

theorem attrDepth_enough (std : Std) {n : Nat} {s : Text} (h : s.length < n) : attrDepth std n s = parseAttr std s :=
  (agree_attrDepth std (s.length + 1) n (by omega) s (by omega)).symm

/-- The recursion of the attribute parser unfolds. -/
theorem parseAttr_eq (std : Std) (s : Text) : parseAttr std s = attrBody std (parseAttr std) s :=
  agree_attrBody std (n := s.length) (fun _ h => attrDepth_enough std h) (mono_attrDepth std _) s (by omega)

theorem mono_parseAttr (std : Std) : Mono (parseAttr std) := fun s a r h => mono_attrDepth std _ s a r h

theorem eats_parseAttr (std : Std) : Eats (parseAttr std) := fun s a r h => by
  rw [parseAttr_eq] at h
  exact eats_attrBody std (mono_parseAttr std) s a r h

theorem eats_parseAttribute (std : Std) : Eats (parseAttribute std) :=
  eats_bind_left (eats_lit (by decide)) fun _ => mono_bind (mono_chr _) fun _ =>
    mono_cutErr (mono_attrList (mono_parseAttr std))

theorem eats_attrLine (std : Std) : Eats (do let as ← parseAttribute std; chr '\n'; pure as : P (List Attribute)) :=
  eats_bind_left (eats_parseAttribute std) fun _ => mono_bind (mono_chr _) fun _ => mono_pure _

theorem mono_parseAttributes (std : Std) : Mono (parseAttributes std) :=
  mono_bind (mono_many (eats_mono (eats_attrLine std))) fun _ => mono_pure _

/-! ### Fields, variants, generics -/

theorem mono_parseId : Mono parseId := mono_bind (mono_chr _) fun _ => mono_bind (mono_decUint _) fun _ => mono_pure _

theorem mono_optId : Mono optId := mono_opt (mono_sp mono_parseId)

theorem eats_parseNamedField : Eats parseNamedField :=
  eats_bind_right (mono_ws mono_parseComments) fun _ => eats_bind_left (eats_sp (eats_name _ _)) fun _ =>
    mono_bind (mono_sp (mono_chr _)) fun _ => mono_bind (mono_sp mono_parseType) fun _ => mono_bind mono_optId fun _ =>
      mono_pure _

theorem eats_parseUnnamedField : Eats parseUnnamedField :=
  eats_bind_left (eats_ws eats_parseType) fun _ => mono_bind mono_optId fun _ => mono_pure _

theorem mono_parseFields : Mono parseFields := by
  refine mono_bind mono_peekAny fun c => ?_
  split
  · exact mono_bind (mono_surround (mono_commaList (eats_mono eats_parseNamedField))) fun _ => mono_pure _
  split
  · exact mono_bind (mono_surround (mono_commaList (eats_mono eats_parseUnnamedField))) fun _ => mono_pure _
  · exact mono_pure _

theorem mono_parseGenerics : Mono parseGenerics :=
  mono_bind (mono_opt (mono_surround (mono_commaList (mono_ws (mono_name _ _))))) fun _ => mono_pure _

theorem eats_parseVariant : Eats parseVariant :=
  eats_bind_right (mono_ws mono_parseComments) fun _ => eats_bind_left (eats_sp (eats_name _ _)) fun _ =>
    mono_bind (mono_sp mono_parseFields) fun _ => mono_bind mono_optId fun _ => mono_pure _

/-! ### Definitions -/

theorem eats_parseStruct : Eats parseStruct :=
  eats_bind_left (eats_lit (by decide)) fun _ => mono_bind (mono_takeWhile _ _) fun _ => mono_cutErr <|
    mono_bind (mono_name _ _) fun _ => mono_bind mono_parseGenerics fun _ => mono_bind (mono_sp mono_parseFields) fun _ =>
      mono_pure _

theorem eats_parseEnum : Eats parseEnum :=
  eats_bind_left (eats_lit (by decide)) fun _ => mono_bind (mono_takeWhile _ _) fun _ => mono_cutErr <|
    mono_bind (mono_name _ _) fun _ => mono_bind mono_parseGenerics fun _ =>
      mono_bind (mono_sp (mono_surround (mono_commaList (eats_mono eats_parseVariant)))) fun _ => mono_pure _

theorem eats_parseAlias : Eats parseAlias :=
  eats_bind_left (eats_lit (by decide)) fun _ => mono_bind (mono_takeWhile _ _) fun _ => mono_cutErr <|
    mono_bind (mono_name _ _) fun _ => mono_bind mono_parseGenerics fun _ => mono_bind (mono_sp (mono_chr _)) fun _ =>
      mono_bind (mono_sp mono_parseType) fun _ => mono_bind (mono_sp (mono_chr _)) fun _ => mono_pure _

theorem eats_parseConst (std : Std) : Eats (parseConst std) :=
  eats_bind_left (eats_lit (by decide)) fun _ => mono_bind (mono_takeWhile _ _) fun _ => mono_cutErr <|
    mono_bind (mono_name _ _) fun _ => mono_bind (mono_chr _) fun _ => mono_bind (mono_sp mono_parseType) fun _ =>
      mono_bind (mono_sp (mono_chr _)) fun _ => mono_bind (mono_sp (mono_parseLiteral std)) fun _ =>
        mono_bind (mono_chr _) fun _ => mono_pure _

theorem eats_parseImport : Eats parseImport :=
  eats_bind_left (eats_lit (by decide)) fun _ => mono_bind (mono_takeWhile _ _) fun _ => mono_cutErr <|
    mono_bind (mono_separated1 (mono_name _ _) (mono_lit _)) fun _ =>
      mono_bind (mono_opt (mono_bind (mono_lit _) fun _ => mono_alt (mono_name _ _) (mono_name _ _))) fun _ =>
        mono_bind (mono_chr _) fun _ => mono_pure _

theorem eats_parseModule {rec : P Definition} (h : Mono rec) : Eats (parseModule rec) :=
  eats_bind_left (eats_lit (by decide)) fun _ => mono_bind (mono_takeWhile _ _) fun _ => mono_cutErr <|
    mono_bind (mono_name _ _) fun _ => mono_bind (mono_sp (mono_surround (mono_many (mono_ws h)))) fun _ => mono_pure _

theorem eats_fail {α : Type} : Eats (fail : P α) := fun _ _ _ h => by cases h

theorem eats_defKind (std : Std) {rec : P Definition} (h : Mono rec) : Eats (defKind std rec) := by
  refine eats_bind_right mono_peekAny fun c => ?_
  split
  · exact eats_parseModule h
  split
  · exact eats_bind_left eats_parseStruct fun _ => mono_pure _
  split
  · exact eats_bind_left eats_parseEnum fun _ => mono_pure _
  split
  · exact eats_bind_left (eats_parseConst std) fun _ => mono_pure _
  split
  · exact eats_bind_left eats_parseAlias fun _ => mono_pure _
  split
  · exact eats_bind_left eats_parseImport fun _ => mono_pure _
  · exact eats_fail

theorem eats_defBody (std : Std) {rec : P Definition} (h : Mono rec) : Eats (defBody std rec) :=
  eats_bind_right (mono_ws mono_parseComments) fun _ => eats_bind_right (mono_ws (mono_parseAttributes std)) fun _ =>
    eats_bind_left (eats_sp (eats_defKind std h)) fun _ => mono_pure _

theorem mono_defDepth (std : Std) : ∀ n, Mono (defDepth std n)
  | 0 => fun _ _ _ h => by cases h
  | n + 1 => eats_mono (eats_defBody std (mono_defDepth std n))

theorem agree_parseModule {n : Nat} {p q : P Definition} (h : Agree n p q) (hm : Mono p) :
    Agree (n + 1) (parseModule p) (parseModule q) :=
  agree_eats (eats_lit (by decide)) fun _ => agree_bind (agree_refl _ _) (mono_takeWhile _ _) fun _ => agree_cutErr <|
    agree_bind (agree_refl _ _) (mono_name _ _) fun _ =>
      agree_bind (agree_le (agree_sp (agree_surround (agree_many (agree_ws h) (mono_ws hm)) (mono_many (mono_ws hm))))
        (by omega)) (mono_sp (mono_surround (mono_many (mono_ws hm)))) fun _ => agree_refl _ _

theorem agree_defBody (std : Std) {n : Nat} {p q : P Definition} (h : Agree n p q) (hm : Mono p) :
    Agree (n + 1) (defBody std p) (defBody std q) := by
  refine agree_bind (agree_refl _ _) (mono_ws mono_parseComments) fun _ =>
    agree_bind (agree_refl _ _) (mono_ws (mono_parseAttributes std)) fun _ =>
      agree_bind (agree_sp ?_) (mono_sp (eats_mono (eats_defKind std hm))) fun _ => agree_refl _ _
  refine agree_bind (agree_refl _ _) mono_peekAny fun c => ?_
  split
  · exact agree_parseModule h hm
  · exact agree_refl _ _

theorem agree_defDepth (std : Std) : ∀ n m, n ≤ m → Agree n (defDepth std n) (defDepth std m)
  | 0, _, _ => fun _ h => by omega
  | n + 1, 0, h => by omega
  | n + 1, m + 1, h => agree_defBody std (agree_defDepth std n m (by omega)) (mono_defDepth std n)

theorem defDepth_enough (std : Std) {n : Nat} {s : Text} (h : s.length < n) :
    defDepth std n s = parseDefinition std s :=
  (agree_defDepth std (s.length + 1) n (by omega) s (by omega)).symm

/-- The recursion of the definition parser unfolds. -/
theorem parseDefinition_eq (std : Std) (s : Text) : parseDefinition std s = defBody std (parseDefinition std) s :=
  agree_defBody std (n := s.length) (fun _ h => defDepth_enough std h) (mono_defDepth std _) s (by omega)

theorem eats_parseDefinition (std : Std) : Eats (parseDefinition std) := fun s a r h => by
  rw [parseDefinition_eq] at h
  exact eats_defBody std (fun s a r h => mono_defDepth std _ s a r h) s a r h

end Mabo.Parse
