import Verif.Parser.LiteralsLemmas
import Verif.Props.Parser
/-! Properties of literals (C37). All theorems hold for every choice of the standard-library parts in `Std`. -/
namespace Mabo.Props
open Mabo.Ast Mabo.Spec Mabo.Parse

/-- A literal that survives printing, printed and followed by any text that does not continue a number, is read back and
leaves that text. -/
theorem C37_print_parse (std : Std) (l : Literal) (h : LiteralOk (FloatOk std.showFloat std.readFloat) l) (rest : Text)
    (hr : LiteralEnd rest) : parseLiteral std (printLiteral std l ++ rest) = .ok l rest := literal_print std l h hr

theorem literalEnd_nil : LiteralEnd [] := fun _ h => by cases h

/-- Every `i128`. -/
theorem C37_integers (std : Std) (i : Int) (h : -2 ^ 127 ≤ i ∧ i < 2 ^ 127) :
    parseLiteral std (printLiteral std (.int i)) = .ok (.int i) [] := by
  have := C37_print_parse std (.int i) h [] literalEnd_nil
  rwa [List.append_nil] at this

/-- Both booleans. -/
theorem C37_booleans (std : Std) (b : Bool) : parseLiteral std (printLiteral std (.bool b)) = .ok (.bool b) [] := by
  have := C37_print_parse std (.bool b) trivial [] literalEnd_nil
  rwa [List.append_nil] at this

/-- Every list of bytes, but for the empty one, which has no syntax. -/
theorem C37_bytes (std : Std) (bs : List UInt8) :
    parseLiteral std (printLiteral std (.bytes bs)) = .ok (.bytes bs) [] ↔ bs ≠ [] := by
  constructor
  · intro h; exact parseLiteral_inv std h
  · intro hb
    have := C37_print_parse std (.bytes bs) hb [] literalEnd_nil
    rwa [List.append_nil] at this

/-- The only character of a string that the parser cannot read back is NUL: `{:?}` writes it as `\0`. All others
survive, whichever of them the standard library escapes. -/
theorem C37_strings (std : Std) (s : String) :
    parseLiteral std (printLiteral std (.string s)) = .ok (.string s) [] ↔ Char.ofNat 0 ∉ s.toList := by
  constructor
  · intro h hn
    have h1 : parseLiteral std (printLiteral std (.string s)) = parseString (printString std s ++ []) := by
      rw [List.append_nil]; rfl
    rw [h1, string_nul std hn []] at h
    cases h
  · intro hs
    have := C37_print_parse std (.string s) hs [] literalEnd_nil
    rwa [List.append_nil] at this

/-- A constant whose value holds a NUL makes the formatter's output unreadable: the error is final. -/
theorem C37_nul_is_an_error (std : Std) (s : String) (h : Char.ofNat 0 ∈ s.toList) (rest : Text) :
    parseLiteral std (printLiteral std (.string s) ++ rest) = .cut := string_nul std h rest

/-- Such a string can be read: the parser accepts NUL itself, and `\u{0}`. -/
theorem C37_nul_readable (std : Std) : parseLiteral std ['"', Char.ofNat 0, '"'] = .ok (.string "\x00") [] ∧
    parseLiteral std "\"\\u{0}\"".toList = .ok (.string "\x00") [] := ⟨rfl, by rfl⟩

/-- A float that is printed like an integer (as Rust does for `1.0`, printed `1`) is read back as that integer and not
as a float. -/
theorem C37_integral_floats (std : Std) (f : BitVec 64) (i : Int) (hi : -2 ^ 127 ≤ i ∧ i < 2 ^ 127)
    (h : std.showFloat f = (toString i).toList) (rest : Text) (hr : LiteralEnd rest) :
    parseLiteral std (printLiteral std (.float f) ++ rest) = .ok (.int i) rest := by
  have e : std.showFloat f = printInt i := by
    rw [h]
    cases i with
    | ofNat n =>
      show (Nat.repr n).toList = if (n : Int) < 0 then _ else printNat n
      rw [if_neg (by omega), Nat.repr, String.toList_ofList]; rfl
    | negSucc n =>
      show ("-" ++ Nat.repr (n + 1)).toList = if Int.negSucc n < 0 then '-' :: printNat (n + 1) else _
      rw [if_pos (Int.negSucc_lt_zero n), String.toList_append, Nat.repr, String.toList_ofList (l := Nat.toDigits 10 (n + 1))]; rfl
  show parseLiteral std (std.showFloat f ++ rest) = _
  rw [e]
  exact literal_print std (.int i) hi hr

/-- Whatever text a literal was read from, if it is not a string with NUL and not a float, its printed form denotes the
same value: formatting keeps it. For a float this depends on the printed form, see `FloatOk`. -/
theorem C37_formatting_preserves (std : Std) (s r : Text) (l : Literal) (h : parseLiteral std s = .ok l r)
    (hs : ∀ v, l = .string v → Char.ofNat 0 ∉ v.toList)
    (hf : ∀ v, l = .float v → FloatOk std.showFloat std.readFloat v) :
    parseLiteral std (printLiteral std l) = .ok l [] := by
  have hv := parseLiteral_inv std h
  have : LiteralOk (FloatOk std.showFloat std.readFloat) l := by
    cases l with
    | bool b => trivial
    | int i => exact hv
    | float f => exact hf f rfl
    | string v => exact hs v rfl
    | bytes bs => exact hv
  have := C37_print_parse std l this [] literalEnd_nil
  rwa [List.append_nil] at this

/-- Integers out of the range of `i128` are rejected, with a final error. -/
theorem C37_range (std : Std) (i : Int) (h : i < -2 ^ 127 ∨ 2 ^ 127 ≤ i) (rest : Text) (hr : LiteralEnd rest) :
    parseLiteral std (printLiteral std (.int i) ++ rest) = .cut := by
  show parseLiteral std (printInt i ++ rest) = _
  obtain ⟨c, cs, hc, hd⟩ := printInt_head i
  have hfloat : parseFloat std (printInt i ++ rest) = .back := bind_back (floatText_int hr)
  obtain ⟨o, h1, h2⟩ := optSign_printInt (i := i) (r := rest)
  have hint : parseInt (printInt i ++ rest) = .back := by
    unfold parseInt
    rw [bind_ok h1, bind_ok (digits1_print _ (literalEnd_digit hr))]
    have hc : ¬ (-2 ^ 127 ≤ intVal o (printNat i.natAbs) ∧ intVal o (printNat i.natAbs) < 2 ^ 127) := by
      rw [h2]; omega
    show (if _ then _ else _ : P Literal) rest = _
    rw [if_neg hc]; rfl
  have e : parseLiteral std (printInt i ++ rest) = cutErr (alt (parseFloat std) parseInt) (printInt i ++ rest) := by
    rw [hc, List.cons_append]; exact parseLiteral_num std hd
  rw [e]
  exact cutErr_back (by rw [alt_right hfloat]; exact hint)

/-- An example of the standard-library parts: only the bell character is escaped; every float is read as `0.5`. -/
def C37_std : Std := ⟨fun _ => 0x3fe0000000000000#64, fun _ => "0.5".toList, fun c => c == '\x07'⟩

/-- What these theorems speak about: literals of each kind with their texts. -/
theorem C37_example :
    printLiteral C37_std (.int (-2 ^ 127)) = "-170141183460469231731687303715884105728".toList ∧
    printLiteral C37_std (.bytes [1, 255]) = "[1, 255]".toList ∧
    printLiteral C37_std (.string "a\n\"\x07é") = "\"a\\n\\\"\\u{7}é\"".toList ∧
    LiteralOk (FloatOk C37_std.showFloat C37_std.readFloat) (.string "a\n\"\x07é") ∧
    LiteralOk (FloatOk C37_std.showFloat C37_std.readFloat) (.float 0x3fe0000000000000#64) ∧ LiteralEnd ";".toList := by
  refine ⟨by decide +kernel, by decide +kernel, by decide +kernel, by show _ ∉ _; decide,
    ⟨⟨[], ['0'], ['5'], rfl, .inl rfl, by simp, by simp, by decide, by decide⟩, rfl⟩, ?_⟩
  intro c hc; cases hc; decide

end Mabo.Props
