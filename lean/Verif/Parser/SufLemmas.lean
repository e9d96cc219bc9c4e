import Verif.Lsp.TokensCover
import Verif.Parser.Schema
/-! What the parsers of types, fields and definitions leave is a suffix of the input. -/
namespace Mabo.Lsp
open Mabo.Parse Mabo.Ast

theorem suf_many1 {α : Type} {p : P α} (hp : Suf p) : Suf (many1 p) :=
  suf_bind hp fun _ => suf_bind (suf_many hp) fun _ => suf_pure _

theorem suf_punctuateAux {α : Type} {f : P α} {g : P (α × Bool)} (hf : Suf f) (hg : Suf g) (s0 : Text) :
    ∀ {n acc prev s a r}, s <:+ s0 → (∀ s' acc', prev = some (s', acc') → s' <:+ s0) →
      punctuateAux f g n acc prev s = .ok a r → r <:+ s0
  | 0, _, _, _, _, _, _, _, h => by cases h
  | n + 1, acc, prev, s, a, r, hs, hp, h => by
    rw [punctuateAux_succ] at h
    cases h1 : f s with
    | ok x m =>
      rw [h1] at h
      by_cases hl : m.length = s.length
      · simp only [if_pos hl] at h; cases h
      · simp only [if_neg hl] at h
        exact suf_punctuateAux hf hg s0 (n := n) (acc := x :: acc) (prev := some (s, acc)) ((hf h1).trans hs)
          (fun s' acc' e => by cases e; exact hs) h
    | cut => rw [h1] at h; cases h
    | back =>
      rw [h1] at h
      cases h2 : g s with
      | ok x m => rw [h2] at h; cases h; exact (hg h2).trans hs
      | cut => rw [h2] at h; cases h
      | back =>
        rw [h2] at h
        cases prev with
        | none => cases h
        | some q =>
          obtain ⟨s', acc'⟩ := q
          cases h3 : g s' with
          | ok x m => simp only [h3] at h; cases h; exact (hg h3).trans (hp _ _ rfl)
          | cut => simp only [h3] at h; cases h
          | back => simp only [h3] at h; cases h

theorem suf_commaList {α : Type} {p : P α} (hp : Suf p) : Suf (commaList p) := fun {s _ _} h =>
  suf_punctuateAux (suf_bind hp fun _ => suf_bind (suf_ws (suf_chr _)) fun _ => suf_pure _)
    (suf_bind hp fun _ => suf_bind (suf_opt (suf_ws (suf_chr _))) fun _ => suf_pure _) s List.suffix_rfl
    (fun _ _ e => by cases e) h

theorem suf_surround {α : Type} {o c : Char} {p : P α} (hp : Suf p) : Suf (surround o c p) :=
  suf_bind (suf_chr _) fun _ => suf_cutErr (suf_bind hp fun _ => suf_bind (suf_ws (suf_chr _)) fun _ => suf_pure _)

theorem suf_typeBody {rec : P DataType} (h : Suf rec) : Suf (typeBody rec) := by
  have hs : Suf (parseSingle rec) := suf_cutErr (suf_surround h)
  have hl : Suf (commaList (ws rec)) := suf_commaList (suf_ws h)
  have h1 : Suf parseBasic := by
    have hb : Suf (do
        let w ← takeWhile 2 isBasicChar
        match basicOf (String.ofList w) with
        | some p => pure (.prim p)
        | none => fail : P DataType) := suf_bind (suf_takeWhile _ _) fun w => by
      cases basicOf (String.ofList w) with
      | some p => exact suf_pure _
      | none => exact suf_fail
    unfold parseBasic
    have hc : ∀ (w : String) (t : DataType), Suf (do lit w; pure t : P DataType) := fun w t => suf_bind (suf_lit _) fun _ => suf_pure _
    exact @suf_alt _ _ _ @hb (@suf_alt _ _ _ (hc _ _) (hc _ _))
  have h2 : Suf (parseGeneric rec) := suf_bind (suf_takeWhile _ _) fun w =>
    suf_ite (suf_bind hs fun _ => suf_pure _) <| suf_ite (suf_bind (suf_cutErr (suf_surround
        (suf_bind h fun _ => suf_bind (suf_sp (suf_chr _)) fun _ => suf_bind (suf_sp h) fun _ => suf_pure _))) fun _ => suf_pure _) <|
      suf_ite (suf_bind hs fun _ => suf_pure _) <| suf_ite (suf_bind hs fun _ => suf_pure _) <|
      suf_ite (suf_bind hs fun _ => suf_pure _) suf_fail
  have h3 : Suf (parseTuple rec) := suf_bind (suf_surround hl) fun _ => suf_pure _
  have h4 : Suf (parseArray rec) := suf_bind (suf_surround (suf_bind (suf_ws h) fun _ => suf_bind (suf_ws (suf_chr _)) fun _ =>
      suf_bind (suf_ws (suf_decUint _)) fun _ => suf_pure _)) fun _ => suf_pure _
  have h5 : Suf (parseExternal rec) := suf_bind
    (suf_opt (suf_many1 (suf_bind (suf_name _ _) fun _ => suf_bind (suf_lit _) fun _ => suf_pure _))) fun _ =>
      suf_bind (suf_name _ _) fun _ => suf_bind (suf_opt (suf_surround hl)) fun g => by
        cases g with
        | none => exact suf_pure _
        | some g => exact suf_pure _
  unfold typeBody
  exact @suf_alt _ _ _ @h1 (@suf_alt _ _ _ @h2 (@suf_alt _ _ _ @h3 (@suf_alt _ _ _ @h4 @h5)))

theorem suf_typeDepth : ∀ n, Suf (typeDepth n)
  | 0 => fun h => by cases h
  | n + 1 => suf_typeBody (suf_typeDepth n)

theorem suf_parseType : Suf parseType := fun h => suf_typeDepth _ h

theorem suf_optId : Suf optId := suf_opt (suf_sp (suf_bind (suf_chr _) fun _ => suf_bind (suf_decUint _) fun _ => suf_pure _))

theorem suf_parseComments : Suf parseComments :=
  suf_many (suf_bind (suf_takeWhile _ _) fun _ => suf_bind (suf_lit _) fun _ => suf_bind (suf_takeWhile _ _) fun _ =>
    suf_bind (suf_takeWhile _ _) fun _ => suf_bind (suf_chr _) fun _ => suf_pure _)

theorem suf_parseNamedField : Suf parseNamedField :=
  suf_bind (suf_ws suf_parseComments) fun _ => suf_bind (suf_sp (suf_name _ _)) fun _ => suf_bind (suf_sp (suf_chr _)) fun _ =>
    suf_bind (suf_sp suf_parseType) fun _ => suf_bind suf_optId fun _ => suf_pure _

theorem suf_parseUnnamedField : Suf parseUnnamedField :=
  suf_bind (suf_ws suf_parseType) fun _ => suf_bind suf_optId fun _ => suf_pure _

theorem suf_parseFields : Suf parseFields :=
  suf_bind suf_peekAny fun _ => suf_ite (suf_bind (suf_surround (suf_commaList suf_parseNamedField)) fun _ => suf_pure _) <|
    suf_ite (suf_bind (suf_surround (suf_commaList suf_parseUnnamedField)) fun _ => suf_pure _) (suf_pure _)

theorem suf_parseGenerics : Suf parseGenerics :=
  suf_bind (suf_opt (suf_surround (suf_commaList (suf_ws (suf_name _ _))))) fun _ => suf_pure _

theorem suf_parseVariant : Suf parseVariant :=
  suf_bind (suf_ws suf_parseComments) fun _ => suf_bind (suf_sp (suf_name _ _)) fun _ => suf_bind (suf_sp suf_parseFields) fun _ =>
    suf_bind suf_optId fun _ => suf_pure _

theorem suf_parseStruct : Suf parseStruct :=
  suf_bind (suf_lit _) fun _ => suf_bind (suf_takeWhile _ _) fun _ => suf_cutErr (suf_bind (suf_name _ _) fun _ =>
    suf_bind suf_parseGenerics fun _ => suf_bind (suf_sp suf_parseFields) fun _ => suf_pure _)

theorem suf_parseEnum : Suf parseEnum :=
  suf_bind (suf_lit _) fun _ => suf_bind (suf_takeWhile _ _) fun _ => suf_cutErr (suf_bind (suf_name _ _) fun _ =>
    suf_bind suf_parseGenerics fun _ => suf_bind (suf_sp (suf_surround (suf_commaList suf_parseVariant))) fun _ => suf_pure _)

theorem suf_parseAlias : Suf parseAlias :=
  suf_bind (suf_lit _) fun _ => suf_bind (suf_takeWhile _ _) fun _ => suf_cutErr (suf_bind (suf_name _ _) fun _ =>
    suf_bind suf_parseGenerics fun _ => suf_bind (suf_sp (suf_chr _)) fun _ => suf_bind (suf_sp suf_parseType) fun _ =>
    suf_bind (suf_sp (suf_chr _)) fun _ => suf_pure _)

theorem suf_parseConst (std : Std) : Suf (parseConst std) :=
  suf_bind (suf_lit _) fun _ => suf_bind (suf_takeWhile _ _) fun _ => suf_cutErr (suf_bind (suf_name _ _) fun _ =>
    suf_bind (suf_chr _) fun _ => suf_bind (suf_sp suf_parseType) fun _ => suf_bind (suf_sp (suf_chr _)) fun _ =>
    suf_bind (suf_sp (suf_parseLiteral std)) fun _ => suf_bind (suf_chr _) fun _ => suf_pure _)

theorem suf_parseImport : Suf parseImport :=
  suf_bind (suf_lit _) fun _ => suf_bind (suf_takeWhile _ _) fun _ => suf_cutErr
    (suf_bind (suf_separated1 (suf_name _ _) (suf_lit _)) fun _ =>
      suf_bind (suf_opt (suf_bind (suf_lit _) fun _ => suf_alt (suf_name _ _) (suf_name _ _))) fun _ => suf_bind (suf_chr _) fun _ => suf_pure _)

theorem suf_parseModule {rec : P Definition} (h : Suf rec) : Suf (parseModule rec) :=
  suf_bind (suf_lit _) fun _ => suf_bind (suf_takeWhile _ _) fun _ => suf_cutErr (suf_bind (suf_name _ _) fun _ =>
    suf_bind (suf_sp (suf_surround (suf_many (suf_ws h)))) fun _ => suf_pure _)

theorem suf_defBody (std : Std) {rec : P Definition} (h : Suf rec) : Suf (defBody std rec) :=
  suf_bind (suf_ws suf_parseComments) fun _ => suf_bind (suf_ws (suf_parseAttributes std)) fun _ => suf_bind
    (suf_sp (suf_bind suf_peekAny fun _ => suf_ite (suf_parseModule h) <|
      suf_ite (suf_bind suf_parseStruct fun _ => suf_pure _) <| suf_ite (suf_bind suf_parseEnum fun _ => suf_pure _) <|
      suf_ite (suf_bind (suf_parseConst std) fun _ => suf_pure _) <| suf_ite (suf_bind suf_parseAlias fun _ => suf_pure _) <|
      suf_ite (suf_bind suf_parseImport fun _ => suf_pure _) suf_fail)) fun _ => suf_pure _

theorem suf_defDepth (std : Std) : ∀ n, Suf (defDepth std n)
  | 0 => fun h => by cases h
  | n + 1 => suf_defBody std (suf_defDepth std n)

theorem suf_parseDefinition (std : Std) : Suf (parseDefinition std) := fun h => suf_defDepth std _ h

end Mabo.Lsp
