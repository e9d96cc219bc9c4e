import Verif.Parser.Literals
import Verif.Parser.TypesMain
/-! Literals that are printed are read back. -/
namespace Mabo.Parse
open Mabo.Ast Mabo.Spec

theorem taken_ok {α : Type} {p : P α} {w r : Text} {a : α} (h : p (w ++ r) = .ok a r) : taken p (w ++ r) = .ok w r := by
  unfold taken
  rw [h]
  simp

theorem literalEnd_digit {r : Text} (h : LiteralEnd r) : Stop isDigit r := fun c hc => by
  rw [← Bool.not_eq_true, isDigit_iff]
  exact fun hd => h c hc (List.mem_append.2 (.inl hd))

theorem digits_not_sign {c : Char} (h : c ∈ digits) : (c == '+' || c == '-') = false := by
  have : ∀ c ∈ digits, (c == '+' || c == '-') = false := by decide
  exact this c h

theorem peekAny_cons (c : Char) (s : Text) : peekAny (c :: s) = .ok c (c :: s) := rfl

/-! ### Numbers -/

theorem optSign_digit {c : Char} {s : Text} (h : isDigit c = true) : optSign (c :: s) = .ok none (c :: s) :=
  opt_none (oneOf_back (digits_not_sign ((isDigit_iff c).1 h)) s)

theorem optSign_minus (s : Text) : optSign ('-' :: s) = .ok (some '-') s := opt_some (oneOf_ok (by decide) s)

/-- A number starts with a sign or a digit. -/
theorem parseLiteral_num (std : Std) {c : Char} {s : Text} (h : c = '-' ∨ isDigit c = true) :
    parseLiteral std (c :: s) = cutErr (alt (parseFloat std) parseInt) (c :: s) := by
  have ht : c ≠ 't' := by
    rintro rfl
    rcases h with h | h <;> exact absurd h (by decide)
  have hf : c ≠ 'f' := by
    rintro rfl
    rcases h with h | h <;> exact absurd h (by decide)
  unfold parseLiteral
  rw [bind_ok (peekAny_cons c s)]
  rw [if_neg ht, if_neg hf, if_pos]
  rcases h with rfl | h
  · exact .inr (.inl rfl)
  · exact .inr (.inr h)

theorem optSign_printInt {i : Int} {r : Text} : ∃ o, optSign (printInt i ++ r) = .ok o (printNat i.natAbs ++ r) ∧
    intVal o (printNat i.natAbs) = i := by
  unfold printInt
  split
  · refine ⟨some '-', optSign_minus _, ?_⟩
    rw [intVal, if_pos rfl, digitsVal_printNat]; omega
  · obtain ⟨c, cs, h1, h2⟩ := printNat_head i.natAbs
    refine ⟨none, ?_, ?_⟩
    · rw [h1]; exact optSign_digit h2
    · rw [intVal, if_neg (by decide), digitsVal_printNat]; omega

theorem digits1_print (n : Nat) {r : Text} (hr : Stop isDigit r) : takeWhile 1 isDigit (printNat n ++ r) = .ok (printNat n) r :=
  takeWhile_ok (printNat_digits n) hr (Nat.length_toDigits_pos)

theorem floatText_int {i : Int} {r : Text} (h : LiteralEnd r) : floatText (printInt i ++ r) = .back := by
  obtain ⟨o, h1, _⟩ := optSign_printInt (i := i) (r := r)
  unfold floatText taken
  rw [bind_ok h1, bind_ok (digits1_print _ (literalEnd_digit h))]
  cases r with
  | nil => rfl
  | cons c r =>
    have : c ≠ '.' := by rintro rfl; exact h '.' rfl (by decide)
    rw [bind_back (chr_back r this)]

theorem printInt_head (i : Int) : ∃ c cs, printInt i = c :: cs ∧ (c = '-' ∨ isDigit c = true) := by
  unfold printInt
  split
  · exact ⟨'-', _, rfl, .inl rfl⟩
  · obtain ⟨c, cs, h1, h2⟩ := printNat_head i.natAbs
    exact ⟨c, cs, h1, .inr h2⟩

theorem int_print (std : Std) {i : Int} (hi : -2 ^ 127 ≤ i ∧ i < 2 ^ 127) {r : Text} (hr : LiteralEnd r) :
    parseLiteral std (printInt i ++ r) = .ok (.int i) r := by
  have key : cutErr (alt (parseFloat std) parseInt) (printInt i ++ r) = .ok (.int i) r := by
    have hb : parseFloat std (printInt i ++ r) = .back := bind_back (floatText_int hr)
    rw [cutErr_ok, alt_right hb]
    obtain ⟨o, h1, h2⟩ := optSign_printInt (i := i) (r := r)
    unfold parseInt
    rw [bind_ok h1, bind_ok (digits1_print _ (literalEnd_digit hr))]
    simp only [h2]
    rw [if_pos hi]; rfl
  obtain ⟨c, cs, h1, h2⟩ := printInt_head i
  rw [h1, List.cons_append] at key ⊢
  rw [parseLiteral_num std h2]
  exact key

theorem float_print (std : Std) {f : BitVec 64} (hf : FloatOk std.showFloat std.readFloat f) {r : Text} (hr : LiteralEnd r) :
    parseLiteral std (std.showFloat f ++ r) = .ok (.float f) r := by
  obtain ⟨⟨sign, int, frac, h1, h2, h3, h4, h5, h6⟩, h7⟩ := hf
  have d5 : ∀ c ∈ int, isDigit c = true := fun c hc => (isDigit_iff c).2 (h5 c hc)
  have d6 : ∀ c ∈ frac, isDigit c = true := fun c hc => (isDigit_iff c).2 (h6 c hc)
  have l3 : 1 ≤ int.length := List.length_pos_iff.2 h3
  have l4 : 1 ≤ frac.length := List.length_pos_iff.2 h4
  have hsign : ∀ m, ∃ o, optSign (sign ++ (int ++ m)) = .ok o (int ++ m) := by
    intro m
    rcases h2 with rfl | rfl
    · cases int with
      | nil => exact absurd rfl h3
      | cons c cs => exact ⟨none, optSign_digit (d5 c (by simp))⟩
    · exact ⟨some '-', optSign_minus _⟩
  have hexp : ∀ {α : Type} (p : P α), opt (do let _ ← oneOf (fun c => c == 'e' || c == 'E'); p) r = .ok none r := by
    intro α p
    refine opt_none (bind_back ?_)
    cases r with
    | nil => rfl
    | cons c r =>
      refine oneOf_back ?_ r
      rw [← Bool.not_eq_true]
      intro h
      simp only [Bool.or_eq_true, beq_iff_eq] at h
      rcases h with rfl | rfl <;> exact hr _ rfl (by decide)
  have hft : floatText (std.showFloat f ++ r) = .ok (std.showFloat f) r := by
    refine taken_ok (a := ()) ?_
    have e : std.showFloat f ++ r = sign ++ (int ++ '.' :: (frac ++ r)) := by rw [h1]; simp
    obtain ⟨o, ho⟩ := hsign ('.' :: (frac ++ r))
    rw [e, bind_ok ho, bind_ok (takeWhile_ok d5 (stop_cons.2 (by decide)) l3), bind_ok (chr_ok _ _),
      bind_ok (takeWhile_ok d6 (literalEnd_digit hr) l4), bind_ok (hexp _)]
    rfl
  have key : cutErr (alt (parseFloat std) parseInt) (std.showFloat f ++ r) = .ok (.float f) r := by
    rw [cutErr_ok]
    refine alt_left ?_
    unfold parseFloat
    rw [bind_ok hft, h7]; rfl
  have hhead : ∃ c cs, std.showFloat f = c :: cs ∧ (c = '-' ∨ isDigit c = true) := by
    rw [h1]
    rcases h2 with rfl | rfl
    · cases int with
      | nil => exact absurd rfl h3
      | cons c cs => exact ⟨c, _, rfl, .inr (d5 c (by simp))⟩
    · exact ⟨'-', _, rfl, .inl rfl⟩
  obtain ⟨c, cs, e, hc⟩ := hhead
  rw [e, List.cons_append] at key ⊢
  rw [parseLiteral_num std hc]
  exact key

/-! ### Bytes -/

theorem byte_print (b : UInt8) {r : Text} (hr : Stop isDigit r) : ws (decUint 256) (printNat b.toNat ++ r) = .ok b.toNat r := by
  rw [ws_stop]
  · exact decUint_ok b.toNat_lt hr
  · obtain ⟨c, cs, h1, h2⟩ := printNat_head b.toNat
    rw [h1]
    have : ∀ c ∈ digits, isMulti c = false := by decide
    exact stop_cons.2 (this c ((isDigit_iff c).1 h2))

theorem eats_decUint (b : Nat) : Eats (decUint b) := fun s a r h => by
  obtain ⟨rfl, _, _⟩ := decUint_eq_ok h
  have : 0 < (printNat a).length := Nat.length_toDigits_pos
  rw [List.length_append]; omega

theorem bytes_tail : ∀ (bs : List UInt8) (r : Text), bs ≠ [] →
    many (do let _ ← ws (chr ','); ws (decUint 256)) (',' :: ' ' :: (printByteList bs ++ ']' :: r)) =
      .ok (bs.map UInt8.toNat) (']' :: r)
  | [], _, h => absurd rfl h
  | b :: bs, r, _ => by
    have he : Eats (do let _ ← ws (chr ','); ws (decUint 256) : P Nat) :=
      eats_bind_left (eats_ws (eats_chr _)) fun _ => mono_ws (mono_decUint _)
    have hc : ∀ m, ws (chr ',') (',' :: m) = .ok () m := fun m => by
      rw [ws_stop (stop_cons.2 (by decide))]; exact chr_ok _ _
    cases bs with
    | nil =>
      refine many_ok he (a := b.toNat) (r := ']' :: r) ?_ (many_back (bind_back ?_))
      · rw [bind_ok (hc _), ws_skip (by decide)]
        exact byte_print b (stop_cons.2 (by decide))
      · rw [ws_stop (stop_cons.2 (by decide))]; exact chr_back _ (by decide)
    | cons b' bs =>
      have e : printByteList (b :: b' :: bs) = printNat b.toNat ++ (',' :: ' ' :: printByteList (b' :: bs)) := by
        rw [printByteList, List.append_assoc]; rfl
        intro h; cases h
      rw [e, List.append_assoc]
      refine many_ok he (a := b.toNat) (r := ',' :: ' ' :: (printByteList (b' :: bs) ++ ']' :: r)) ?_
        (bytes_tail (b' :: bs) r (by simp))
      rw [bind_ok (hc _), ws_skip (by decide)]
      exact byte_print b (stop_cons.2 (by decide))

theorem bytes_print {bs : List UInt8} (hne : bs ≠ []) (r : Text) :
    parseBytes ('[' :: (printByteList bs ++ ']' :: r)) = .ok (.bytes bs) r := by
  have hclose : ws (chr ',') (']' :: r) = .back := by
    rw [ws_stop (stop_cons.2 (by decide))]; exact chr_back _ (by decide)
  have hmap : ∀ l : List UInt8, (l.map UInt8.toNat).map UInt8.ofNat = l := by
    intro l; induction l <;> simp_all
  have key : separated1 (ws (decUint 256)) (ws (chr ',')) (printByteList bs ++ ']' :: r) =
      .ok (bs.map UInt8.toNat) (']' :: r) := by
    cases bs with
    | nil => exact absurd rfl hne
    | cons b bs =>
      unfold separated1
      cases bs with
      | nil =>
        rw [printByteList, bind_ok (byte_print b (stop_cons.2 (by decide))), bind_ok (many_back (bind_back hclose))]
        rfl
      | cons b' bs =>
        have e : printByteList (b :: b' :: bs) = printNat b.toNat ++ (',' :: ' ' :: printByteList (b' :: bs)) := by
          rw [printByteList, List.append_assoc]; rfl
          intro h; cases h
        rw [e, List.append_assoc, List.cons_append, List.cons_append,
          bind_ok (byte_print b (stop_cons.2 (by decide))), bind_ok (bytes_tail (b' :: bs) r (by simp))]
        rfl
  unfold parseBytes
  rw [bind_ok (chr_ok _ _)]
  have : cutErr (do
      let bs ← separated1 (ws (decUint 256)) (ws (chr ','))
      let _ ← opt (ws (chr ','))
      ws (chr ']')
      pure bs) (printByteList bs ++ ']' :: r) = .ok (bs.map UInt8.toNat) r := by
    have h3 : ws (chr ']') (']' :: r) = .ok () r := by rw [ws_stop (stop_cons.2 (by decide))]; exact chr_ok _ _
    rw [cutErr_ok, bind_ok key, bind_ok (opt_none hclose), bind_ok h3]; rfl
  rw [bind_ok this, hmap]; rfl

/-! ### Strings -/

theorem hexDigit_digitChar : ∀ n : Fin 16, isHex (n.val.digitChar) = true ∧ hexDigit n.val.digitChar = n.val := by decide

theorem hexVal_append (a : Text) (c : Char) : hexVal (a ++ [c]) = 16 * hexVal a + hexDigit c := by
  simp [hexVal, List.foldl_append]

theorem hex_print (n : Nat) : (∀ c ∈ Nat.toDigits 16 n, isHex c = true) ∧ hexVal (Nat.toDigits 16 n) = n := by
  induction n using Nat.strongRecOn with
  | _ n ih =>
    by_cases h : n < 16
    · rw [Nat.toDigits_of_lt_base h]
      have := hexDigit_digitChar ⟨n, h⟩
      refine ⟨fun c hc => ?_, ?_⟩
      · rw [List.mem_singleton.1 hc]; exact this.1
      · rw [← List.nil_append [n.digitChar], hexVal_append, this.2]; show 16 * 0 + n = n; omega
    · have ⟨i1, i2⟩ := ih (n / 16) (by omega)
      rw [Nat.toDigits_of_base_le (by omega) (by omega)]
      have := hexDigit_digitChar ⟨n % 16, by omega⟩
      refine ⟨fun c hc => ?_, ?_⟩
      · rcases List.mem_append.1 hc with hc | hc
        · exact i1 c hc
        · rw [List.mem_singleton.1 hc]; exact this.1
      · rw [hexVal_append, i2, this.2]; simp only; omega

theorem charOf_toNat (c : Char) : charOf c.toNat = some c := by
  unfold charOf
  rw [dif_pos (show c.toNat.isValidChar from c.valid)]
  congr 1

theorem takeWhileMax_ok {f : Char → Bool} {w r : Text} {n m : Nat} (hw : ∀ c ∈ w, f c = true) (hr : Stop f r)
    (hn : n ≤ w.length) (hm : w.length ≤ m) : takeWhileMax n m f (w ++ r) = .ok w r := by
  unfold takeWhileMax
  simp only [(takeWhile_append_stop hw hr).1, List.take_of_length_le hm]
  rw [if_neg (by omega)]
  simp

theorem char_lt (c : Char) : c.toNat < 16 ^ 6 := by
  have := c.valid
  simp only [UInt32.isValidChar, Nat.isValidChar] at this
  show c.val.toNat < _
  omega

theorem unicode_print (c : Char) (r : Text) :
    parseUnicode ('u' :: '{' :: (Nat.toDigits 16 c.toNat ++ '}' :: r)) = .ok c r := by
  have ⟨h1, h2⟩ := hex_print c.toNat
  unfold parseUnicode
  rw [bind_ok (chr_ok _ _)]
  have : cutErr (do chr '{'; let ds ← takeWhileMax 1 6 isHex; chr '}'; pure ds)
      ('{' :: (Nat.toDigits 16 c.toNat ++ '}' :: r)) = .ok (Nat.toDigits 16 c.toNat) r := by
    rw [cutErr_ok, bind_ok (chr_ok _ _), bind_ok (takeWhileMax_ok h1 (stop_cons.2 (by decide)) Nat.length_toDigits_pos
      ((Nat.length_toDigits_le_iff (by omega) (by omega)).2 (char_lt c))), bind_ok (chr_ok _ _)]
    rfl
  rw [bind_ok this, h2, charOf_toNat]; rfl

/-- Characters that are printed as themselves. -/
def Bare (std : Std) (c : Char) : Prop := printChar std c = [c] ∧ isPlain c = true

theorem frag_escape {s r : Text} {c : Char} (h : escapedChar s = .ok c r) : parseFragment ('\\' :: s) = .ok [c] r := by
  unfold parseFragment
  rw [alt_right (takeWhile_head (by decide) (by omega))]
  refine alt_left ?_
  rw [bind_ok (chr_ok _ _), bind_ok h]; rfl

/-- Every other character except NUL is read back by one fragment. -/
theorem printChar_cases (std : Std) (c : Char) (h0 : c ≠ '\x00') :
    Bare std c ∨ ((∃ m, printChar std c = '\\' :: m) ∧ ∀ r, parseFragment (printChar std c ++ r) = .ok [c] r) := by
  by_cases h1 : c = '\t'
  · subst h1; exact .inr ⟨⟨_, rfl⟩, fun r => frag_escape rfl⟩
  by_cases h2 : c = '\r'
  · subst h2; exact .inr ⟨⟨_, rfl⟩, fun r => frag_escape rfl⟩
  by_cases h3 : c = '\n'
  · subst h3; exact .inr ⟨⟨_, rfl⟩, fun r => frag_escape rfl⟩
  by_cases h4 : c = '\\'
  · subst h4; exact .inr ⟨⟨_, rfl⟩, fun r => frag_escape rfl⟩
  by_cases h5 : c = '"'
  · subst h5; exact .inr ⟨⟨_, rfl⟩, fun r => frag_escape rfl⟩
  by_cases h6 : std.escaped c = true
  · right
    have e : printChar std c = '\\' :: 'u' :: '{' :: (Nat.toDigits 16 c.toNat ++ ['}']) := by
      simp only [printChar, h0, h1, h2, h3, h4, h5, h6, if_true, if_false]
    refine ⟨⟨_, e⟩, fun r => ?_⟩
    rw [e]
    refine frag_escape (s := 'u' :: '{' :: ((Nat.toDigits 16 c.toNat ++ ['}']) ++ r)) ?_
    rw [List.append_assoc]
    exact unicode_print c r
  · left
    refine ⟨by simp only [printChar, h0, h1, h2, h3, h4, h5, h6, if_false]; rfl, ?_⟩
    simp [isPlain, h4, h5]

theorem mono_escapedChar : Mono escapedChar := by
    intro s a r h'
    unfold escapedChar at h'
    obtain ⟨c, m, h1, h⟩ := bind_eq_ok h'
    clear h'
    have e : m = s := by
      cases s with
      | nil => cases h1
      | cons d s => injection h1 with _ e; exact e.symm
    subst e
    have hs : ∀ (d e : Char), (do chr d; pure e : P Char) m = .ok a r → r.length ≤ m.length := fun d e h =>
      mono_bind (mono_chr _) (fun _ => mono_pure _) _ _ _ h
    repeat' split at h
    all_goals first | exact hs _ _ h | skip
    · refine mono_bind (mono_chr _) (fun _ => mono_bind (mono_cutErr (mono_bind (mono_chr _) fun _ =>
        mono_bind ?_ fun _ => mono_bind (mono_chr _) fun _ => mono_pure _)) fun ds => ?_) _ _ _ h
      · intro s a r h
        unfold takeWhileMax at h
        simp only at h
        split at h
        · cases h
        · injection h with _ h; rw [← h, List.length_drop]; omega
      · split
        · exact mono_pure _
        · exact mono_fail
    · cases h

theorem eats_parseFragment : Eats parseFragment :=
  eats_alt (eats_takeWhile _ (by omega)) (eats_alt
    (eats_bind_left (eats_chr _) fun _ => mono_bind mono_escapedChar fun _ => mono_pure _)
    (eats_bind_left (eats_chr _) fun _ => mono_bind (mono_takeWhile _ _) fun _ => mono_pure _))

/-- Fragments of a printed text, up to something that starts with a quote or a backslash. -/
theorem fragments_print (std : Std) : ∀ n (cs : Text), cs.length ≤ n → '\x00' ∉ cs → ∀ (rest frs' rest' : Text) (fs : List Text),
    Stop isPlain rest → many parseFragment rest = .ok fs rest' → frs' = fs.flatten →
    ∃ frs, many parseFragment ((cs.map (printChar std)).flatten ++ rest) = .ok frs rest' ∧ frs.flatten = cs ++ frs' := by
  intro n
  induction n with
  | zero =>
    intro cs hn _ rest frs' rest' fs hs h e
    have : cs = [] := List.length_eq_zero_iff.1 (by omega)
    subst this
    exact ⟨fs, h, by rw [e]; rfl⟩
  | succ n ih =>
    intro cs hn h0 rest frs' rest' fs hs h e
    -- the longest run of bare characters
    have hsplit : ∀ cs : Text, '\x00' ∉ cs → ∃ run cs', cs = run ++ cs' ∧ (∀ c ∈ run, Bare std c) ∧
        (cs' = [] ∨ ∃ c cs'', cs' = c :: cs'' ∧ (∃ m, printChar std c = '\\' :: m) ∧
          ∀ r, parseFragment (printChar std c ++ r) = .ok [c] r) := by
      intro cs
      induction cs with
      | nil => intro _; exact ⟨[], [], rfl, by simp, .inl rfl⟩
      | cons c cs ih =>
        intro h0
        rcases printChar_cases std c (fun e => h0 (by simp [e])) with hb | hb
        · obtain ⟨run, cs', e, h1, h2⟩ := ih (fun h => h0 (by simp [h]))
          refine ⟨c :: run, cs', by rw [e]; rfl, fun d hd => ?_, h2⟩
          rcases List.mem_cons.1 hd with rfl | hd
          · exact hb
          · exact h1 d hd
        · exact ⟨[], c :: cs, rfl, by simp, .inr ⟨c, cs, rfl, hb⟩⟩
    obtain ⟨run, cs', rfl, hrun, hcs'⟩ := hsplit cs h0
    have hmap : ∀ l : Text, (∀ c ∈ l, Bare std c) → (l.map (printChar std)).flatten = l := by
      intro l
      induction l with
      | nil => intro _; rfl
      | cons c l ih =>
        intro h
        rw [List.map_cons, List.flatten_cons, (h c (by simp)).1, ih (fun d hd => h d (by simp [hd]))]; rfl
    rw [List.map_append, List.flatten_append, hmap run hrun, List.append_assoc]
    have htail : Stop isPlain ((cs'.map (printChar std)).flatten ++ rest) := by
      rcases hcs' with rfl | ⟨c, cs'', rfl, ⟨m, hm⟩, _⟩
      · exact hs
      · rw [List.map_cons, List.flatten_cons, hm]
        exact stop_cons.2 (by decide)
    cases run with
    | nil =>
      rcases hcs' with rfl | ⟨c, cs'', rfl, _, hfrag⟩
      · exact ⟨fs, h, by rw [e]; rfl⟩
      · obtain ⟨frs, h1, h2⟩ := ih cs'' (by simp only [List.nil_append, List.length_cons] at hn; omega)
          (fun hh => h0 (by simp [hh])) rest frs' rest' fs hs h e
        refine ⟨[c] :: frs, ?_, by rw [List.flatten_cons, h2]; rfl⟩
        rw [List.nil_append, List.map_cons, List.flatten_cons, List.append_assoc]
        exact many_ok eats_parseFragment (hfrag _) h1
    | cons d run =>
      obtain ⟨frs, h1, h2⟩ := ih cs' (by simp only [List.cons_append, List.length_cons, List.length_append] at hn; omega)
        (fun hh => h0 (by simp [hh])) rest frs' rest' fs hs h e
      refine ⟨(d :: run) :: frs, ?_, by rw [List.flatten_cons, h2, List.append_assoc]⟩
      refine many_ok eats_parseFragment (alt_left ?_) h1
      exact takeWhile_ok (fun c hc => (hrun c hc).2) htail (by simp)

theorem string_print (std : Std) {s : String} (h : '\x00' ∉ s.toList) (r : Text) :
    parseString (printString std s ++ r) = .ok (.string s) r := by
  have hq : parseFragment ('"' :: r) = .back := by
    unfold parseFragment
    rw [alt_right (takeWhile_head (by decide) (by omega)), alt_right (bind_back (chr_back r (by decide)))]
    exact bind_back (chr_back r (by decide))
  obtain ⟨frs, h1, h2⟩ := fragments_print std _ s.toList (Nat.le_refl _) h ('"' :: r) [] ('"' :: r) []
    (stop_cons.2 (by decide)) (many_back hq) rfl
  unfold parseString printString
  rw [List.cons_append, List.append_assoc, List.singleton_append, bind_ok (chr_ok _ _)]
  have : cutErr (do let frs ← many parseFragment; chr '"'; pure frs)
      ((s.toList.map (printChar std)).flatten ++ '"' :: r) = .ok frs r := by
    rw [cutErr_ok, bind_ok h1, bind_ok (chr_ok _ _)]; rfl
  rw [bind_ok this, h2, List.append_nil, String.ofList_toList]; rfl

theorem first_nul : ∀ (l : Text), '\x00' ∈ l → ∃ pre post, l = pre ++ '\x00' :: post ∧ '\x00' ∉ pre
  | [], h => by cases h
  | c :: l, h => by
    by_cases hc : c = '\x00'
    · exact ⟨[], l, by rw [hc]; rfl, by simp⟩
    · obtain ⟨pre, post, e, hp⟩ := first_nul l (by simpa [Ne.symm hc] using h)
      exact ⟨c :: pre, post, by rw [e]; rfl, by simp [Ne.symm hc, hp]⟩

/-- A string with a NUL is printed as `\0`, which is a final parse error. -/
theorem string_nul (std : Std) {s : String} (h : '\x00' ∈ s.toList) (r : Text) : parseString (printString std s ++ r) = .cut := by
  obtain ⟨pre, post, e, hpre⟩ := first_nul _ h
  have hq : ∀ m, parseFragment ('\\' :: '0' :: m) = .back := fun m => rfl
  have hz : printChar std '\x00' = ['\\', '0'] := rfl
  unfold parseString printString
  rw [List.cons_append, List.append_assoc, List.singleton_append, bind_ok (chr_ok _ _), e, List.map_append,
    List.flatten_append, List.map_cons, List.flatten_cons, hz, List.append_assoc, List.append_assoc]
  obtain ⟨frs, h1, _⟩ := fragments_print std _ pre (Nat.le_refl _) hpre
    (['\\', '0'] ++ ((post.map (printChar std)).flatten ++ '"' :: r)) [] _ [] (stop_cons.2 (by decide))
    (many_back (hq _)) rfl
  refine bind_cut (cutErr_back ?_)
  rw [bind_ok h1]
  exact bind_back (chr_back _ (by decide))

/-! ### All literals -/

theorem literal_print (std : Std) (l : Literal) (h : LiteralOk (FloatOk std.showFloat std.readFloat) l) {r : Text}
    (hr : LiteralEnd r) : parseLiteral std (printLiteral std l ++ r) = .ok l r := by
  cases l with
  | bool b => cases b <;> rfl
  | int i => exact int_print std h hr
  | float f => exact float_print std h hr
  | string s => exact string_print std h r
  | bytes bs =>
    have := bytes_print h r
    rw [printLiteral, List.cons_append, List.append_assoc, List.singleton_append]
    exact this

/-- What is read satisfies everything but the conditions on strings and floats. -/
theorem parseLiteral_inv (std : Std) {l : Literal} {s r : Text} (h : parseLiteral std s = .ok l r) :
    LiteralValid l := by
  unfold parseLiteral at h
  obtain ⟨c, m, _, h⟩ := bind_eq_ok h
  split at h
  · obtain ⟨_, _, _, h⟩ := bind_eq_ok h
    rw [← (pure_eq_ok h).1]; trivial
  split at h
  · obtain ⟨_, _, _, h⟩ := bind_eq_ok h
    rw [← (pure_eq_ok h).1]; trivial
  split at h
  · rcases alt_eq_ok (cutErr_ok.1 h) with h | ⟨_, h⟩
    · obtain ⟨_, _, _, h⟩ := bind_eq_ok h
      rw [← (pure_eq_ok h).1]; trivial
    · obtain ⟨_, _, _, h⟩ := bind_eq_ok h
      obtain ⟨_, _, _, h⟩ := bind_eq_ok h
      simp only at h
      split at h
      · rename_i hv
        rw [← (pure_eq_ok h).1]; exact hv
      · cases h
  split at h
  · obtain ⟨_, _, _, h⟩ := bind_eq_ok h
    obtain ⟨_, _, _, h⟩ := bind_eq_ok h
    rw [← (pure_eq_ok h).1]; trivial
  split at h
  · obtain ⟨_, _, _, h⟩ := bind_eq_ok h
    obtain ⟨bs, _, h1, h⟩ := bind_eq_ok h
    rw [← (pure_eq_ok h).1]
    obtain ⟨bs', _, h2, h1⟩ := bind_eq_ok (cutErr_ok.1 h1)
    obtain ⟨_, _, _, h1⟩ := bind_eq_ok h1
    obtain ⟨_, _, _, h1⟩ := bind_eq_ok h1
    rw [← (pure_eq_ok h1).1]
    obtain ⟨_, _, _, h2⟩ := bind_eq_ok h2
    obtain ⟨_, _, _, h2⟩ := bind_eq_ok h2
    rw [← (pure_eq_ok h2).1]
    simp [LiteralValid]
  · cases h

end Mabo.Parse
