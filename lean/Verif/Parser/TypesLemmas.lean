import Verif.Parser.Types
import Verif.Parser.CombLemmas
/-! Lemmas about the type parser: the recursion unfolds (`parseType_eq`), and printed types are read back. -/
namespace Mabo.Parse
open Mabo.Ast
open Mabo.Schema (Prim)

/-! ### The recursion -/

theorem mono_parseBasic : Mono parseBasic :=
  mono_alt (mono_bind (mono_takeWhile _ _) fun w => by
    split
    · exact mono_pure _
    · exact mono_fail)
    (mono_alt (mono_bind (mono_lit _) fun _ => mono_pure _) (mono_bind (mono_lit _) fun _ => mono_pure _))

theorem mono_parseSingle {p : P DataType} (h : Mono p) : Mono (parseSingle p) := mono_cutErr (mono_surround h)

theorem mono_pairBody {p : P DataType} (h : Mono p) :
    Mono (do let k ← p; sp (chr ','); let v ← sp p; pure (k, v) : P (DataType × DataType)) :=
  mono_bind h fun _ => mono_bind (mono_sp (mono_chr _)) fun _ => mono_bind (mono_sp h) fun _ => mono_pure _

theorem mono_parsePair {p : P DataType} (h : Mono p) : Mono (parsePair p) := mono_cutErr (mono_surround (mono_pairBody h))

theorem mono_parseGeneric {p : P DataType} (h : Mono p) : Mono (parseGeneric p) := by
  refine mono_bind (mono_takeWhile _ _) fun w => ?_
  have hs : ∀ f : DataType → DataType, Mono (do let t ← parseSingle p; pure (f t) : P DataType) :=
    fun f => mono_bind (mono_parseSingle h) fun _ => mono_pure _
  simp only []
  repeat' split
  · exact hs _
  · exact mono_bind (mono_parsePair h) fun _ => mono_pure _
  · exact hs _
  · exact hs _
  · exact hs _
  · exact mono_fail

theorem mono_parseTuple {p : P DataType} (h : Mono p) : Mono (parseTuple p) :=
  mono_bind (mono_surround (mono_commaList (mono_ws h))) fun _ => mono_pure _

theorem mono_decUint (b : Nat) : Mono (decUint b) := fun s a r h => by
  unfold decUint at h
  have hm : Mono (alt (do let c ← oneOf (fun c => isDigit c && c != '0'); let cs ← takeWhile 0 isDigit; pure (c :: cs))
      (do let c ← oneOf (· == '0'); pure [c])) :=
    mono_alt (mono_bind (mono_oneOf _) fun _ => mono_bind (mono_takeWhile _ _) fun _ => mono_pure _)
      (mono_bind (mono_oneOf _) fun _ => mono_pure _)
  split at h
  · rename_i cs m h1
    split at h
    · injection h with _ h; rw [← h]; exact hm _ _ _ h1
    · cases h
  · cases h
  · cases h

theorem mono_arrayBody {p : P DataType} (h : Mono p) :
    Mono (do let t ← ws p; ws (chr ';'); let n ← ws (decUint (2 ^ 32)); pure (t, n) : P (DataType × Nat)) :=
  mono_bind (mono_ws h) fun _ => mono_bind (mono_ws (mono_chr _)) fun _ =>
    mono_bind (mono_ws (mono_decUint _)) fun _ => mono_pure _

theorem mono_parseArray {p : P DataType} (h : Mono p) : Mono (parseArray p) :=
  mono_bind (mono_surround (mono_arrayBody h)) fun _ => mono_pure _

/-- `seg::`. -/
def segSep : P String := do let s ← parseSegment; lit "::"; pure s

theorem eats_segSep : Eats segSep :=
  eats_bind_left (eats_name _ _) fun _ => mono_bind (mono_lit _) fun _ => mono_pure _

theorem parseExternal_eq (p : P DataType) : parseExternal p = (do
    let path ← opt (many1 segSep)
    let name ← parseExternalName
    let generics ← opt (surround '<' '>' (commaList (ws p)))
    match generics with
    | some (ts, trailing) => pure (.external (path.getD []) name ts trailing)
    | none => pure (.external (path.getD []) name [] false)) := rfl

theorem mono_parseExternal {p : P DataType} (h : Mono p) : Mono (parseExternal p) := by
  rw [parseExternal_eq]
  refine mono_bind (mono_opt (mono_many1 (eats_mono eats_segSep))) fun _ => mono_bind (mono_name _ _) fun _ =>
    mono_bind (mono_opt (mono_surround (mono_commaList (mono_ws h)))) fun _ => ?_
  split <;> exact mono_pure _

theorem mono_typeBody {p : P DataType} (h : Mono p) : Mono (typeBody p) :=
  mono_alt mono_parseBasic <| mono_alt (mono_parseGeneric h) <| mono_alt (mono_parseTuple h) <|
    mono_alt (mono_parseArray h) (mono_parseExternal h)

theorem mono_typeDepth : ∀ n, Mono (typeDepth n)
  | 0 => fun _ _ _ h => by cases h
  | n + 1 => mono_typeBody (mono_typeDepth n)

theorem agree_parseGeneric {n : Nat} {p q : P DataType} (h : Agree n p q) (hm : Mono p) :
    Agree (n + 1) (parseGeneric p) (parseGeneric q) := by
  refine agree_eats (eats_takeWhile _ (by omega)) fun w => ?_
  have h1 : Agree n (parseSingle p) (parseSingle q) := agree_le (agree_cutErr (agree_surround h hm)) (by omega)
  have h2 : Agree n (parsePair p) (parsePair q) := agree_le (agree_cutErr (agree_surround
    (agree_bind h hm fun _ => agree_bind (agree_refl _ _) (mono_sp (mono_chr _)) fun _ =>
      agree_bind (agree_sp h) (mono_sp hm) fun _ => agree_refl _ _) (mono_pairBody hm))) (by omega)
  have hs : ∀ f : DataType → DataType, Agree n (do let t ← parseSingle p; pure (f t) : P DataType)
      (do let t ← parseSingle q; pure (f t) : P DataType) :=
    fun f => agree_bind h1 (mono_parseSingle hm) fun _ => agree_refl _ _
  simp only []
  repeat' split
  · exact hs _
  · exact agree_bind h2 (mono_parsePair hm) fun _ => agree_refl _ _
  · exact hs _
  · exact hs _
  · exact hs _
  · exact agree_refl _ _

theorem agree_typeBody {n : Nat} {p q : P DataType} (h : Agree n p q) (hm : Mono p) :
    Agree (n + 1) (typeBody p) (typeBody q) := by
  refine agree_alt (agree_refl _ _) <| agree_alt (agree_parseGeneric h hm) <| agree_alt ?_ <| agree_alt ?_ ?_
  · exact agree_bind (agree_surround (agree_commaList (agree_ws h) (mono_ws hm)) (mono_commaList (mono_ws hm)))
      (mono_surround (mono_commaList (mono_ws hm))) fun _ => agree_refl _ _
  · exact agree_bind (agree_surround (agree_bind (agree_ws h) (mono_ws hm) fun _ => agree_refl _ _) (mono_arrayBody hm))
      (mono_surround (mono_arrayBody hm)) fun _ => agree_refl _ _
  · rw [parseExternal_eq, parseExternal_eq]
    refine agree_bind (agree_refl _ _) (mono_opt (mono_many1 (eats_mono eats_segSep))) fun _ =>
      agree_bind (agree_refl _ _) (mono_name _ _) fun _ => ?_
    exact agree_bind (agree_opt (agree_surround (agree_commaList (agree_ws h) (mono_ws hm)) (mono_commaList (mono_ws hm))))
      (mono_opt (mono_surround (mono_commaList (mono_ws hm)))) fun _ => agree_refl _ _

theorem agree_typeDepth : ∀ n m, n ≤ m → Agree n (typeDepth n) (typeDepth m)
  | 0, _, _ => fun _ h => by omega
  | n + 1, 0, h => by omega
  | n + 1, m + 1, h => agree_typeBody (agree_typeDepth n m (by omega)) (mono_typeDepth n)

theorem typeDepth_enough {n : Nat} {s : Text} (h : s.length < n) : typeDepth n s = parseType s :=
  (agree_typeDepth (s.length + 1) n (by omega) s (by omega)).symm

/-- The recursion of the type parser unfolds. -/
theorem parseType_eq (s : Text) : parseType s = typeBody parseType s :=
  agree_typeBody (n := s.length) (fun _ h => typeDepth_enough h) (mono_typeDepth _) s (by omega)

theorem mono_parseType : Mono parseType := fun s a r h => mono_typeDepth _ s a r h

end Mabo.Parse
