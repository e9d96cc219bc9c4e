import Verif.Parser.TypesMain
import Verif.Parser.Punctuated
/-! Properties of the schema parser and printer: types (C36), separated lists (C38), ids (C40). -/
namespace Mabo.Props
open Mabo.Ast Mabo.Spec Mabo.Parse
open Mabo.Schema (Prim)

/-! ## C36: types -/

/-- A well-formed type, printed and followed by any text that does not continue it, parses back to itself and leaves
that text. -/
theorem C36_print_parse (t : DataType) (h : TypeOk t) (rest : Text) (hr : TypeEnd rest) :
    parseType (printType t ++ rest) = .ok t rest := parseType_print t h rest hr

/-- Well-formedness is exactly what is needed. -/
theorem C36_exact (t : DataType) : parseType (printType t) = .ok t [] ↔ TypeOk t := by
  constructor
  · exact parseType_inv
  · intro h
    have := parseType_print t h [] (fun c hc => by cases hc)
    rwa [List.append_nil] at this

/-- Whatever text a type was read from, printing it gives a text that is read as the same type. -/
theorem C36_formatting_preserves (s r : Text) (t : DataType) (h : parseType s = .ok t r) :
    parseType (printType t) = .ok t [] := (C36_exact t).2 (parseType_inv h)

/-- Two well-formed types with the same text are equal. -/
theorem C36_print_injective (t u : DataType) (ht : TypeOk t) (hu : TypeOk u) (h : printType t = printType u) : t = u := by
  have h1 := (C36_exact t).2 ht
  rw [h, (C36_exact u).2 hu] at h1
  injection h1 with h1 _
  exact h1.symm

/-- A type of every shape: `hash_map<&string, vec<(foo::bar::Baz<[u8; 4], T,>, option<non_zero<i32>>)>>`. -/
def C36_sample : DataType :=
  .hashMap (.prim .stringRef) (.vec (.tuple
    [.external ["foo", "bar"] "Baz" [.array (.prim .u8) 4, .external [] "T" [] false] true,
      .option (.nonZero (.prim .i32))] false))

theorem C36_example : TypeOk C36_sample ∧
    printType C36_sample = "hash_map<&string, vec<(foo::bar::Baz<[u8; 4], T,>, option<non_zero<i32>>)>>".toList ∧
    TypeEnd " @1,".toList := by
  have n1 : SnakeName "foo" := ⟨'f', ['o', 'o'], rfl, by decide, by decide⟩
  have n2 : SnakeName "bar" := ⟨'b', ['a', 'r'], rfl, by decide, by decide⟩
  have n3 : RefName "Baz" := ⟨'B', ['a', 'z'], rfl, by decide, by decide⟩
  have n4 : RefName "T" := ⟨'T', [], rfl, by decide, by decide⟩
  have n5 : PathStart "foo" := by constructor <;> decide
  refine ⟨?_, by rfl, ?_⟩
  · simp only [C36_sample, TypeOk, TypeOks, true_and, and_true, List.cons_ne_nil, ne_eq, not_false_eq_true,
      List.mem_cons, List.not_mem_nil, or_false, false_implies, implies_true, List.head?_cons, List.head?_nil,
      Option.some.injEq, reduceCtorEq]
    refine ⟨?_, ?_, n3, n4⟩
    · rintro _ (rfl | rfl)
      · exact n1
      · exact n2
    · rintro _ rfl; exact n5
  · intro c hc
    cases hc
    decide

/-- Names whose beginning is a built-in type cannot start a path: the printed type is rejected or read as another one. -/
theorem C36_keyword_paths :
    parseType (printType (.external ["vec"] "Foo" [] false)) = .cut ∧
    parseType (printType (.external ["option2"] "Foo" [] false)) = .cut ∧
    parseType (printType (.external ["u8"] "Foo" [] false)) = .ok (.prim .u8) "::Foo".toList ∧
    parseType (printType (.external ["bytes_util"] "Foo" [] false)) = .ok (.prim .bytes) "_util::Foo".toList :=
  ⟨rfl, rfl, rfl, rfl⟩

/-- In general: a path whose first module name starts like a built-in type is never read as a path. -/
theorem C36_keyword_path_never_read (s r : Text) (path : List String) (n : String) (ts : List DataType) (tr : Bool)
    (h : parseType s = .ok (.external path n ts tr) r) (seg : String) (hs : path.head? = some seg) : PathStart seg := by
  have := parseType_inv h
  rw [TypeOk] at this
  exact this.2.1 seg hs

/-! ## C38: separated lists -/

/-- A printed list of types between delimiters is read back with its elements and its trailing comma. -/
theorem C38_types (ts : List DataType) (trailing : Bool) (hne : ts ≠ []) (h : ∀ t ∈ ts, TypeOk t) (rest : Text) :
    parseType (printType (.tuple ts trailing) ++ rest) = .ok (.tuple ts trailing) rest := by
  have hok : TypeOk (.tuple ts trailing) := by rw [TypeOk]; exact ⟨hne, (typeOks_iff ts).2 h⟩
  -- a closing parenthesis ends the type whatever follows
  rw [printType_tuple, parseType_eq]
  unfold typeBody
  rw [alt_right (parseBasic_head (by decide)), alt_right (parseGeneric_head (by decide))]
  refine alt_left ?_
  unfold parseTuple
  rw [bind_ok (types_print hne (.inl rfl) fun t ht => parseType_print t (h t ht))]; rfl

/-- The same for any kind of element: if every element's text is read as that element, up to any comma and up to the
text after the list, then the whole list is read back, with its trailing comma. -/
theorem C38_any_list {α : Type} (p : P α) (hp : Eats p) (B : Text → Prop) (hB : ∀ r, B (',' :: r)) (o c : Char)
    (gap rest : Text) (hgap : ∀ d ∈ gap, d ∈ [' ', '\t', '\r', '\n']) (hc : c ∉ [' ', '\t', '\r', '\n', ','])
    (hBc : B (gap ++ c :: rest)) (hpc : p (gap ++ c :: rest) = .back) (trailing : Bool) (items : List (α × Text))
    (hne : items ≠ []) (hi : ∀ i ∈ items, ∀ rest, B rest → p (i.2 ++ rest) = .ok i.1 rest) :
    surround o c (commaList p) (o :: (joinItems (items.map (·.2)) trailing ++ (gap ++ c :: rest))) =
      .ok (items.map (·.1), trailing) rest := by
  have hm : ∀ d, isMulti d = true ↔ d ∈ [' ', '\t', '\r', '\n'] := by intro d; simp [isMulti, or_assoc]
  refine surround_commaList hp hB (fun d hd => (hm d).2 (hgap d hd)) ?_ ?_ hBc hpc trailing items hne hi
  · rw [← Bool.not_eq_true, hm]
    intro h; apply hc; simp only [List.mem_cons] at h ⊢; rcases h with h | h | h | h | h <;> simp_all
  · rintro rfl; exact hc (by decide)

/-- A list that is read is never empty, and each of its elements was read by the element parser. -/
theorem C38_never_empty {α : Type} (p : P α) (s r : Text) (as : List α) (t : Bool) (h : commaList p s = .ok (as, t) r) :
    as ≠ [] ∧ ∀ a ∈ as, ∃ s r, p s = .ok a r := commaList_forall (fun s a r h => ⟨s, r, h⟩) h

theorem drain_values {α : Type} : ∀ (items : List α) (last : Option α) (n : Nat), items.length + 1 < n →
    drain ValuesIter.next n ⟨items, last⟩ = items ++ last.toList
  | _, _, 0, h => by omega
  | [], none, n + 1, _ => rfl
  | [], some x, n + 2, _ => rfl
  | x :: xs, last, n + 1, h => by
    show x :: drain ValuesIter.next n ⟨xs, last⟩ = _
    rw [drain_values xs last n (by simp only [List.length_cons] at h; omega)]; rfl

/-- `values()` yields the values in order, then the last one, and then ends; `len()` is their number and is not zero. -/
theorem C38_len {α : Type} (p : Punctuated α) :
    (∀ n, p.len < n → drain ValuesIter.next n p.valuesIter = p.values ++ [p.last]) ∧
      p.len = (p.values ++ [p.last]).length ∧ p.len ≠ 0 :=
  ⟨fun n hn => drain_values p.values (some p.last) n hn, by simp [Punctuated.len], by simp [Punctuated.len]⟩

theorem drain_iter {α : Type} : ∀ (items : List α) (last : Option (α × Bool)) (n : Nat), items.length + 1 < n →
    drain Iter.next n ⟨items, last⟩ = items.map (·, true) ++ last.toList
  | _, _, 0, h => by omega
  | [], none, n + 1, _ => rfl
  | [], some x, n + 2, _ => rfl
  | x :: xs, last, n + 1, h => by
    show (x, true) :: drain Iter.next n ⟨xs, last⟩ = _
    rw [drain_iter xs last n (by simp only [List.length_cons] at h; omega)]; rfl

/-- `iter()` yields the same values; all but the last are followed by a separator. -/
theorem C38_iter {α : Type} (p : Punctuated α) (n : Nat) (hn : p.len < n) :
    drain Iter.next n p.iter = p.values.map (·, true) ++ [(p.last, p.trailing)] :=
  drain_iter p.values (some (p.last, p.trailing)) n hn

/-- The iterator's own `len()` is the number of elements left as long as one is left. -/
theorem C38_iterator_len {α : Type} (items : List α) (x : α) (n : Nat) (hn : items.length + 1 < n) :
    (⟨items, some x⟩ : ValuesIter α).len = (drain ValuesIter.next n ⟨items, some x⟩).length := by
  rw [drain_values items (some x) n hn]; simp [ValuesIter.len]

/-- At the end it still reports one element although none is left. -/
theorem C38_iterator_len_at_end : ∃ it : ValuesIter Nat, it.next = none ∧ it.len = 1 := ⟨⟨[], none⟩, rfl, rfl⟩

/-! ## C40: ids -/

/-- Value of a decimal numeral. -/
def decimal (ds : List Char) : Nat := ds.foldl (fun n c => 10 * n + (c.toNat - 48)) 0

theorem digitsVal_decimal (ds : Text) : digitsVal ds = decimal ds := by
  have : ∀ n, Nat.ofDigitChars 10 ds n = ds.foldl (fun n c => 10 * n + (c.toNat - 48)) n := by
    induction ds with
    | nil => intro n; rfl
    | cons c ds ih => intro n; rw [Nat.ofDigitChars_cons, ih]; rfl
  exact this 0

theorem digits_notEnd {rest : Text} (h : ∀ c, rest.head? = some c → c ∉ digits) : Stop isDigit rest := fun c hc => by
  rw [← Bool.not_eq_true, isDigit_iff]; exact h c hc

/-- A numeral, up to a character that is not a digit, is accepted as an id exactly if it has no leading zero and fits
into 32 bits, and then the id is its value. -/
theorem C40_accepts_exactly (ds rest : Text) (hne : ds ≠ []) (hd : ∀ c ∈ ds, c ∈ digits)
    (hr : ∀ c, rest.head? = some c → c ∉ digits) (id : BitVec 32) :
    parseId ('@' :: (ds ++ rest)) = .ok id rest ↔
      (ds = ['0'] ∨ ds.head? ≠ some '0') ∧ decimal ds = id.toNat := by
  have hdig : ∀ c ∈ ds, isDigit c = true := fun c hc => (isDigit_iff c).2 (hd c hc)
  constructor
  · intro h
    obtain ⟨_, m, h1, h⟩ := bind_eq_ok h
    have e := chr_eq_ok h1
    injection e with _ e
    subst e
    obtain ⟨n, m', h2, h⟩ := bind_eq_ok h
    obtain ⟨rfl, rfl⟩ := pure_eq_ok h
    obtain ⟨e, hn, _⟩ := decUint_eq_ok h2
    have e := List.append_cancel_right e
    subst e
    refine ⟨?_, ?_⟩
    · by_cases h0 : n = 0
      · subst h0; exact .inl printNat_zero
      · obtain ⟨c, cs, h1, h2⟩ := printNat_pos n (by omega)
        rw [h1]
        exact .inr fun e => h2 (by injection e)
    · rw [← digitsVal_decimal, digitsVal_printNat, BitVec.toNat_ofNat, Nat.mod_eq_of_lt hn]
  · intro ⟨h1, h2⟩
    have hp : ds = printNat id.toNat := by
      rcases h1 with rfl | h1
      · have : id.toNat = 0 := by rw [← h2]; rfl
        rw [this, printNat_zero]
      · cases ds with
        | nil => exact absurd rfl hne
        | cons c cs =>
          have := (printNat_digitsVal c cs hdig (fun e => h1 (by rw [e]; rfl))).1
          rw [digitsVal_decimal, h2] at this
          exact this.symm
    unfold parseId
    rw [bind_ok (chr_ok _ _), hp, bind_ok (decUint_ok id.isLt (digits_notEnd hr))]
    simp only [BitVec.ofNat_toNat, BitVec.setWidth_eq]; rfl

/-- The text an id is read from is the text it is printed as. -/
theorem C40_prints_back (s r : Text) (id : BitVec 32) (h : parseId s = .ok id r) : s = printId id ++ r := by
  obtain ⟨_, m, h1, h⟩ := bind_eq_ok h
  obtain ⟨n, m', h2, h⟩ := bind_eq_ok h
  obtain ⟨rfl, rfl⟩ := pure_eq_ok h
  obtain ⟨rfl, hn, _⟩ := decUint_eq_ok h2
  rw [chr_eq_ok h1, printId, BitVec.toNat_ofNat, Nat.mod_eq_of_lt hn]; rfl

/-- Every id is read back. -/
theorem C40_round_trip (id : BitVec 32) (rest : Text) (hr : ∀ c, rest.head? = some c → c ∉ digits) :
    parseId (printId id ++ rest) = .ok id rest := by
  unfold parseId printId
  rw [List.cons_append, bind_ok (chr_ok _ _), bind_ok (decUint_ok id.isLt (digits_notEnd hr))]
  simp only [BitVec.ofNat_toNat, BitVec.setWidth_eq]; rfl

/-- The largest id, the first number that does not fit, and a leading zero. -/
theorem C40_example : parseId "@4294967295,".toList = .ok 4294967295#32 [','] ∧ parseId "@4294967296,".toList = .back ∧
    parseId "@07,".toList = .ok 0#32 "7,".toList := by
  refine ⟨by rfl, by rfl, by rfl⟩

end Mabo.Props
