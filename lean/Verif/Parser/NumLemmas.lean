import Verif.Parser.TypesLemmas
/-! Decimal numerals: `dec_uint` reads what is printed, and only that. -/
namespace Mabo.Parse

theorem isDigit_eq (c : Char) : isDigit c = c.isDigit := by
  simp only [isDigit, Char.isDigit]
  rfl

theorem printNat_digits (n : Nat) : ∀ c ∈ printNat n, isDigit c = true := fun c hc => by
  rw [isDigit_eq]; exact Nat.isDigit_of_mem_toDigits (by omega) (by omega) hc

theorem digitsVal_printNat (n : Nat) : digitsVal (printNat n) = n := Nat.ofDigitChars_ten_toDigits

theorem printNat_zero : printNat 0 = ['0'] := rfl

theorem printNat_pos (n : Nat) (hn : 0 < n) : ∃ c cs, printNat n = c :: cs ∧ c ≠ '0' := by
  induction n using Nat.strongRecOn with
  | _ n ih =>
    by_cases h : n < 10
    · refine ⟨n.digitChar, [], Nat.toDigits_of_lt_base h, ?_⟩
      rw [Ne, Nat.digitChar_eq_zero]; omega
    · obtain ⟨c, cs, h1, h2⟩ := ih (n / 10) (by omega) (by omega)
      refine ⟨c, cs ++ [(n % 10).digitChar], ?_, h2⟩
      have := Nat.toDigits_of_base_le (b := 10) (n := n) (by omega) (by omega)
      rw [printNat, this]
      rw [printNat] at h1
      rw [h1]; rfl

theorem printNat_head (n : Nat) : ∃ c cs, printNat n = c :: cs ∧ isDigit c = true := by
  cases h : printNat n with
  | nil => exact absurd h Nat.toDigits_ne_nil
  | cons c cs => exact ⟨c, cs, rfl, printNat_digits n c (by rw [h]; simp)⟩

/-- Runs of digits without leading zero are numerals. -/
theorem printNat_digitsVal (c : Char) (cs : Text) (h : ∀ d ∈ c :: cs, isDigit d = true) (hc : c ≠ '0') :
    printNat (digitsVal (c :: cs)) = c :: cs ∧ 0 < digitsVal (c :: cs) := by
  have key : ∀ (l : Text), (∀ d ∈ l, isDigit d = true) → ∀ m, 0 < m →
      printNat (Nat.ofDigitChars 10 l m) = printNat m ++ l ∧ 0 < Nat.ofDigitChars 10 l m := by
    intro l
    induction l with
    | nil => intro _ m hm; simp [Nat.ofDigitChars_nil, hm]
    | cons d l ih =>
      intro hl m hm
      have hd := hl d (by simp)
      rw [Nat.ofDigitChars_cons]
      have hd' : 48 ≤ d.toNat ∧ d.toNat ≤ 57 := by
        simp only [isDigit, Bool.and_eq_true, decide_eq_true_eq, Char.le_def, UInt32.le_iff_toNat_le] at hd
        exact hd
      have hv : d.toNat - '0'.toNat < 10 := by
        have : '0'.toNat = 48 := rfl
        omega
      have hdc : (d.toNat - '0'.toNat).digitChar = d := by
        have hz : '0'.toNat = 48 := rfl
        have h1 := Nat.toNat_digitChar_of_lt_ten hv
        refine Char.ext (UInt32.toNat_inj.1 ?_)
        show (d.toNat - '0'.toNat).digitChar.toNat = d.toNat
        rw [h1]; omega
      have ⟨h1, h2⟩ := ih (fun x hx => hl x (by simp [hx])) (10 * m + (d.toNat - '0'.toNat)) (by omega)
      refine ⟨?_, h2⟩
      rw [h1]
      have : printNat (10 * m + (d.toNat - '0'.toNat)) = printNat m ++ [d] := by
        have := Nat.toDigits_append_toDigits (b := 10) (by omega) hm hv
        rw [Nat.toDigits_of_lt_base hv, hdc] at this
        exact this.symm
      rw [this]; simp
  have hd := h c (by simp)
  have hd' : 48 ≤ c.toNat ∧ c.toNat ≤ 57 := by
    simp only [isDigit, Bool.and_eq_true, decide_eq_true_eq, Char.le_def, UInt32.le_iff_toNat_le] at hd
    exact hd
  have hz : '0'.toNat = 48 := rfl
  have hne : c.toNat ≠ 48 := fun e => hc (Char.ext (UInt32.toNat_inj.1 e))
  have hv : c.toNat - '0'.toNat < 10 := by omega
  have hdc : (c.toNat - '0'.toNat).digitChar = c := by
    have h1 := Nat.toNat_digitChar_of_lt_ten hv
    refine Char.ext (UInt32.toNat_inj.1 ?_)
    show (c.toNat - '0'.toNat).digitChar.toNat = c.toNat
    rw [h1]; omega
  have ⟨h1, h2⟩ := key cs (fun d hd => h d (by simp [hd])) (c.toNat - '0'.toNat) (by omega)
  have e : digitsVal (c :: cs) = Nat.ofDigitChars 10 cs (c.toNat - '0'.toNat) := by
    rw [digitsVal, Nat.ofDigitChars_cons]; simp
  rw [e]
  refine ⟨?_, h2⟩
  rw [h1]
  have : printNat (c.toNat - '0'.toNat) = [c] := by
    rw [printNat, Nat.toDigits_of_lt_base hv, hdc]
  rw [this]; rfl

theorem decUint_ok {b n : Nat} (hn : n < b) {r : Text} (hr : Stop isDigit r) : decUint b (printNat n ++ r) = .ok n r := by
  unfold decUint
  have key : alt (do let c ← oneOf (fun c => isDigit c && c != '0'); let cs ← takeWhile 0 isDigit; pure (c :: cs))
      (do let c ← oneOf (· == '0'); pure [c]) (printNat n ++ r) = .ok (printNat n) r := by
    by_cases h0 : n = 0
    · subst h0
      rw [printNat_zero, List.singleton_append]
      have hb : oneOf (fun c => isDigit c && c != '0') ('0' :: r) = .back := oneOf_back (by decide) _
      rw [alt_right (bind_back hb)]
      have ho : oneOf (· == '0') ('0' :: r) = .ok '0' r := oneOf_ok (by decide) _
      exact bind_ok ho
    · obtain ⟨c, cs, h1, h2⟩ := printNat_pos n (by omega)
      have hd := printNat_digits n
      rw [h1] at hd ⊢
      refine alt_left ?_
      rw [List.cons_append, bind_ok (oneOf_ok (by simp [hd c (by simp), h2]) _),
        bind_ok (takeWhile_ok (fun d hd' => hd d (by simp [hd'])) hr (by omega))]
      rfl
  rw [key]
  simp only [digitsVal_printNat, hn, if_true]

theorem decUint_eq_ok {b n : Nat} {s r : Text} (h : decUint b s = .ok n r) :
    s = printNat n ++ r ∧ n < b ∧ (n ≠ 0 → Stop isDigit r) := by
  unfold decUint at h
  split at h
  · rename_i cs m h1
    split at h
    · rename_i hb
      injection h with e1 e2
      subst e2
      rcases alt_eq_ok h1 with h2 | ⟨_, h2⟩
      · obtain ⟨c, m', h3, h2⟩ := bind_eq_ok h2
        obtain ⟨cs', m'', h4, h2⟩ := bind_eq_ok h2
        obtain ⟨rfl, rfl⟩ := pure_eq_ok h2
        obtain ⟨rfl, h5⟩ := oneOf_eq_ok h3
        obtain ⟨rfl, h6, h7, _⟩ := takeWhile_eq_ok h4
        simp only [Bool.and_eq_true, bne_iff_ne] at h5
        have hall : ∀ d ∈ c :: cs', isDigit d = true := fun d hd => by
          rcases List.mem_cons.1 hd with rfl | hd
          · exact h5.1
          · exact h6 d hd
        have ⟨h8, h9⟩ := printNat_digitsVal c cs' hall h5.2
        rw [e1] at h8 h9 hb
        rw [h8]
        exact ⟨rfl, hb, fun _ => h7⟩
      · obtain ⟨c, m', h3, h2⟩ := bind_eq_ok h2
        obtain ⟨rfl, rfl⟩ := pure_eq_ok h2
        obtain ⟨rfl, h5⟩ := oneOf_eq_ok h3
        have : c = '0' := by simpa using h5
        subst this
        have : n = 0 := by rw [← e1]; rfl
        subst this
        exact ⟨rfl, by rw [← e1]; exact hb, fun h => absurd rfl h⟩
    · cases h
  · cases h
  · cases h

end Mabo.Parse
