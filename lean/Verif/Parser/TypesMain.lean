import Verif.Parser.TypesRound
/-! Printed types are read back; types that are read are exactly the well-formed ones. -/
namespace Mabo.Parse
open Mabo.Ast Mabo.Spec
open Mabo.Schema (Prim)

theorem parseGeneric_not {p : P DataType} {s w r : Text} (h : takeWhile 3 isGenericChar s = .ok w r)
    (hw : String.ofList w ∉ genericNames) : parseGeneric p s = .back := by
  unfold parseGeneric
  rw [bind_ok h]
  simp only [genericNames, List.mem_cons, List.not_mem_nil, or_false, not_or] at hw
  obtain ⟨n1, n2, n3, n4, n5⟩ := hw
  simp only [if_neg n1, if_neg n2, if_neg n3, if_neg n4, if_neg n5]
  rfl

theorem cutErr_back {α : Type} {p : P α} {s : Text} (h : p s = .back) : cutErr p s = .cut := by simp only [cutErr, h]

theorem bind_cut {α β : Type} {p : P α} {f : α → P β} {s : Text} (h : p s = .cut) : (p >>= f) s = .cut := by
  rw [bind_run, h]

theorem parseGeneric_cut {p : P DataType} {s w r : Text} (h : takeWhile 3 isGenericChar s = .ok w r)
    (hw : String.ofList w ∈ genericNames) (hr : ∀ c, r.head? = some c → c ≠ '<') : parseGeneric p s = .cut := by
  have hs : ∀ {α : Type} (q : P α), surround '<' '>' q r = .back := by
    intro α q
    cases r with
    | nil => rfl
    | cons c r => exact surround_back (hr c rfl)
  have h1 : ∀ f : DataType → DataType, (do let t ← parseSingle p; pure (f t) : P DataType) r = .cut := fun f =>
    bind_cut (cutErr_back (hs _))
  have h2 : (do let (k, v) ← parsePair p; pure (.hashMap k v) : P DataType) r = .cut :=
    bind_cut (cutErr_back (hs _))
  unfold parseGeneric
  rw [bind_ok h]
  simp only [genericNames, List.mem_cons, List.not_mem_nil, or_false] at hw
  rcases hw with e | e | e | e | e <;> rw [e]
  · exact h1 _
  · exact h2
  · exact h1 _
  · exact h1 _
  · exact h1 _

theorem parseGeneric_path {p : P DataType} {n : String} (h : SnakeName n) (s : Text) :
    (parseGeneric p (n.toList ++ ':' :: s) = .back ↔ String.ofList (n.toList.takeWhile (· ∉ digits)) ∉ genericNames) ∧
      (String.ofList (n.toList.takeWhile (· ∉ digits)) ∈ genericNames →
        parseGeneric p (n.toList ++ ':' :: s) = .cut) := by
  have hlong : ∀ w ∈ genericNames, 3 ≤ w.toList.length := by decide
  have hin : String.ofList (n.toList.takeWhile (· ∉ digits)) ∈ genericNames →
      parseGeneric p (n.toList ++ ':' :: s) = .cut := by
    intro hm
    have hl := hlong _ hm
    rw [String.toList_ofList] at hl
    have ht : takeWhile 3 isGenericChar (n.toList ++ ':' :: s) =
        .ok (n.toList.takeWhile (· ∉ digits)) ((n.toList ++ ':' :: s).dropWhile isGenericChar) := by
      rw [takeWhile, generic_word' h, if_neg (by omega)]
    refine parseGeneric_cut ht hm fun c hc => ?_
    rintro rfl
    have h1 : '<' ∈ n.toList ++ ':' :: s := (List.dropWhile_suffix _).subset (List.mem_of_mem_head? hc)
    -- the first character that is not taken is a digit of the name or the colon
    have h2 : (n.toList ++ ':' :: s).dropWhile isGenericChar = n.toList.dropWhile isGenericChar ++ ':' :: s := by
      rw [List.dropWhile_append]
      split
      · rename_i he
        rw [List.isEmpty_iff.1 he, List.dropWhile_cons_of_neg (by decide)]; rfl
      · rfl
    rw [h2] at hc
    cases hd : n.toList.dropWhile isGenericChar with
    | nil => rw [hd] at hc; cases hc
    | cons d ds =>
      rw [hd] at hc
      injection hc with e
      subst e
      have : '<' ∈ n.toList := (List.dropWhile_suffix isGenericChar).subset (by rw [hd]; simp)
      exact absurd (snake_seg h _ this) (by decide)
  refine ⟨⟨fun hb hm => ?_, fun hm => ?_⟩, hin⟩
  · rw [hin hm] at hb; cases hb
  · by_cases hl : (n.toList.takeWhile (· ∉ digits)).length < 3
    · exact bind_back (by rw [takeWhile, generic_word' h, if_pos hl])
    · have ht : takeWhile 3 isGenericChar (n.toList ++ ':' :: s) =
        .ok (n.toList.takeWhile (· ∉ digits)) ((n.toList ++ ':' :: s).dropWhile isGenericChar) := by
        rw [takeWhile, generic_word' h, if_neg hl]
      exact parseGeneric_not ht hm

/-! ### The external type -/

theorem segSep_print {n : String} (h : SnakeName n) (s : Text) :
    segSep (n.toList ++ "::".toList ++ s) = .ok n s := by
  unfold segSep parseSegment
  rw [List.append_assoc, bind_ok (name_print ((snakeName_iff n).1 h) (by exact stop_cons.2 (by decide))),
    bind_ok (lit_ok _ _)]
  rfl

theorem segSep_upper {n : String} (h : RefName n) (s : Text) : segSep (n.toList ++ s) = .back := by
  obtain ⟨c, cs, h1, h2, _⟩ := h
  rw [h1]
  have : ∀ c ∈ uppers, isLower c = false := by decide
  exact bind_back (name_back (stop_cons.2 (this c h2)))

theorem many_path {n : String} (hn : RefName n) (s : Text) : ∀ path : List String, (∀ seg ∈ path, SnakeName seg) →
    many segSep (printPath path ++ (n.toList ++ s)) = .ok path (n.toList ++ s)
  | [], _ => many_back (segSep_upper hn s)
  | seg :: path, h => by
    rw [printPath, List.append_assoc]
    exact many_ok eats_segSep (segSep_print (h seg (by simp)) _) (many_path hn s path fun x hx => h x (by simp [hx]))

theorem opt_path {n : String} (hn : RefName n) (s : Text) (path : List String) (h : ∀ seg ∈ path, SnakeName seg) :
    ∃ o, opt (many1 segSep) (printPath path ++ (n.toList ++ s)) = .ok o (n.toList ++ s) ∧ o.getD [] = path := by
  cases path with
  | nil => exact ⟨none, opt_none (many1_back (segSep_upper hn s)), rfl⟩
  | cons seg path =>
    refine ⟨some (seg :: path), opt_some ?_, rfl⟩
    rw [printPath, List.append_assoc]
    unfold many1
    rw [bind_ok (segSep_print (h seg (by simp)) _), bind_ok (many_path hn s path fun x hx => h x (by simp [hx]))]
    rfl

/-- The alternatives before the external type do not apply. -/
theorem typeBody_external {p : P DataType} {path : List String} {n : String} (hn : RefName n) (s : Text)
    (h : ∀ seg ∈ path, SnakeName seg) (hstart : ∀ seg, path.head? = some seg → PathStart seg) :
    typeBody p (printPath path ++ (n.toList ++ s)) = parseExternal p (printPath path ++ (n.toList ++ s)) := by
  cases path with
  | nil =>
    obtain ⟨c, cs, h1, h2, _⟩ := hn
    have : ∀ c ∈ uppers, isBasicChar c = false ∧ isGenericChar c = false ∧ c ≠ '(' ∧ c ≠ '[' := by decide
    have ⟨e1, e2, e3, e4⟩ := this c h2
    rw [printPath, List.nil_append, h1, List.cons_append]
    unfold typeBody
    rw [alt_right (parseBasic_head e1), alt_right (parseGeneric_head e2), alt_right (parseTuple_head e3),
      alt_right (parseArray_head e4)]
  | cons seg path =>
    have hs := h seg (by simp)
    have ⟨hb, hg⟩ := hstart seg rfl
    have e : printPath (seg :: path) ++ (n.toList ++ s) = seg.toList ++ ':' :: (':' :: (printPath path ++ (n.toList ++ s))) := by
      rw [printPath]; simp
    rw [e]
    obtain ⟨c, cs, h1, h2, _⟩ := hs
    have : ∀ c ∈ lowers, c ≠ '(' ∧ c ≠ '[' := by decide
    have ⟨e3, e4⟩ := this c h2
    unfold typeBody
    rw [alt_right ((parseBasic_path (h seg (by simp)) _).1.2 hb), alt_right ((parseGeneric_path (h seg (by simp)) _).1.2 hg)]
    rw [h1, List.cons_append, alt_right (parseTuple_head e3), alt_right (parseArray_head e4)]

/-! ### Lists of types -/

theorem printTypes_join : ∀ (ts : List DataType) (trailing : Bool),
    (∀ t, printTypes (t :: ts) trailing = joinItems (printType t :: ts.map (' ' :: printType ·)) trailing) ∧
    (ts ≠ [] → ' ' :: printTypes ts trailing = joinItems (ts.map (' ' :: printType ·)) trailing)
  | [], trailing => ⟨fun t => by rw [printTypes]; rfl, fun h => absurd rfl h⟩
  | u :: us, trailing => by
    have ih := printTypes_join us trailing
    have h2 : ' ' :: printTypes (u :: us) trailing = joinItems ((u :: us).map (' ' :: printType ·)) trailing := by
      rw [ih.1 u]
      cases us <;> rfl
    refine ⟨fun t => ?_, fun _ => h2⟩
    have : printTypes (t :: u :: us) trailing = printType t ++ ([',', ' '] ++ printTypes (u :: us) trailing) := by
      rw [printTypes, List.append_assoc]; intro h; cases h
    rw [this]
    show printType t ++ ',' :: (' ' :: printTypes (u :: us) trailing) = _
    rw [h2]; rfl

/-- Items of a printed list of types. -/
def typeItems : List DataType → List (DataType × Text)
  | [] => []
  | t :: ts => (t, printType t) :: ts.map fun u => (u, ' ' :: printType u)

theorem typeItems_fst (ts : List DataType) : (typeItems ts).map (·.1) = ts := by
  cases ts with
  | nil => rfl
  | cons t ts => simp [typeItems, Function.comp_def]

theorem typeItems_snd (ts : List DataType) (trailing : Bool) :
    joinItems ((typeItems ts).map (·.2)) trailing = printTypes ts trailing := by
  cases ts with
  | nil => rw [printTypes]; rfl
  | cons t ts => rw [(printTypes_join ts trailing).1 t]; simp [typeItems, Function.comp_def]

theorem types_print {ts : List DataType} (hne : ts ≠ []) {trailing : Bool} {o c : Char} {rest : Text}
    (hc : c = ')' ∨ c = '>') (h : ∀ t ∈ ts, ∀ rest, TypeEnd rest → parseType (printType t ++ rest) = .ok t rest) :
    surround o c (commaList (ws parseType)) (o :: (printTypes ts trailing ++ c :: rest)) = .ok (ts, trailing) rest := by
  have hcl : isMulti c = false ∧ c ≠ ',' ∧ TypeEnd (c :: rest) ∧ parseType (c :: rest) = .back := by
    rcases hc with rfl | rfl <;> exact ⟨by decide, by decide, typeEnd_cons (by decide),
      parseType_head (by decide) (by decide) (by decide) (by decide)⟩
  have := surround_commaList (p := ws parseType) (eats_ws eats_parseType) (B := TypeEnd) (o := o) (c := c) (gap := [])
    (rest := rest) (fun r => typeEnd_cons (by decide)) (by simp) hcl.1 hcl.2.1 hcl.2.2.1
    (by rw [List.nil_append, ws_stop (stop_cons.2 hcl.1)]; exact hcl.2.2.2) trailing (typeItems ts)
    (by cases ts with | nil => exact absurd rfl hne | cons => simp [typeItems]) ?_
  · rw [typeItems_fst, typeItems_snd] at this; exact this
  · intro i hi rest hr
    cases ts with
    | nil => cases hi
    | cons t ts =>
      rcases List.mem_cons.1 hi with rfl | hi
      · exact ws_parseType (h t (by simp) rest hr)
      · obtain ⟨u, hu, rfl⟩ := List.mem_map.1 hi
        show ws parseType (' ' :: (printType u ++ rest)) = _
        rw [ws_skip (by decide)]
        exact ws_parseType (h u (by simp [hu]) rest hr)

/-! ### Round trip -/

theorem parseType_generic {w : String} (hw : w ∈ genericNames) {s r : Text} {t : DataType}
    (h : parseGeneric parseType (w.toList ++ '<' :: s) = .ok t r) : parseType (w.toList ++ '<' :: s) = .ok t r := by
  rw [parseType_eq]
  unfold typeBody
  rw [alt_right (parseBasic_generic s w hw)]
  exact alt_left h

theorem prim_print (p : Prim) {rest : Text} (h : TypeEnd rest) :
    parseType ((printPrim p).toList ++ rest) = .ok (.prim p) rest := by
  rw [parseType_eq]
  refine alt_left ?_
  by_cases hb : p = .boxString ∨ p = .boxBytes
  · rcases hb with rfl | rfl <;> rfl
  · unfold parseBasic
    refine alt_left ?_
    have hw : (∀ c ∈ (printPrim p).toList, isBasicChar c = true) ∧ 2 ≤ (printPrim p).toList.length ∧
        basicOf (printPrim p) = some p := by
      cases p <;> first | decide | exact absurd (.inl rfl) hb | exact absurd (.inr rfl) hb
    rw [bind_ok (takeWhile_ok hw.1 (typeEnd_basic h) hw.2.1), String.ofList_toList, hw.2.2]
    rfl

theorem generic_vec (m : Text) : parseGeneric parseType ("vec".toList ++ '<' :: m) =
    (do let t ← parseSingle parseType; pure (.vec t) : P DataType) ('<' :: m) :=
  bind_ok (generic_word (by decide) m)
theorem generic_hashMap (m : Text) : parseGeneric parseType ("hash_map".toList ++ '<' :: m) =
    (do let (k, v) ← parsePair parseType; pure (.hashMap k v) : P DataType) ('<' :: m) :=
  bind_ok (generic_word (by decide) m)
theorem generic_hashSet (m : Text) : parseGeneric parseType ("hash_set".toList ++ '<' :: m) =
    (do let t ← parseSingle parseType; pure (.hashSet t) : P DataType) ('<' :: m) :=
  bind_ok (generic_word (by decide) m)
theorem generic_option (m : Text) : parseGeneric parseType ("option".toList ++ '<' :: m) =
    (do let t ← parseSingle parseType; pure (.option t) : P DataType) ('<' :: m) :=
  bind_ok (generic_word (by decide) m)
theorem generic_nonZero (m : Text) : parseGeneric parseType ("non_zero".toList ++ '<' :: m) =
    (do let t ← parseSingle parseType; pure (.nonZero t) : P DataType) ('<' :: m) :=
  bind_ok (generic_word (by decide) m)

theorem pair_print {k v : DataType} {rest : Text}
    (hk : ∀ rest, TypeEnd rest → parseType (printType k ++ rest) = .ok k rest)
    (hv : ∀ rest, TypeEnd rest → parseType (printType v ++ rest) = .ok v rest) :
    parsePair parseType ('<' :: (printType k ++ ',' :: ' ' :: (printType v ++ '>' :: rest))) = .ok (k, v) rest := by
  have h2 := hv ('>' :: rest) (typeEnd_cons (by decide))
  have h3 : sp (chr ',') (',' :: ' ' :: (printType v ++ '>' :: rest)) = .ok () (' ' :: (printType v ++ '>' :: rest)) := by
    rw [sp_stop (stop_cons.2 (by decide))]; exact chr_ok _ _
  have h4 : sp parseType (' ' :: (printType v ++ '>' :: rest)) = .ok v ('>' :: rest) := by
    rw [sp_skip (by decide), sp_stop (stop_mono (fun c hc => ?_) (parseType_stop h2))]
    · exact h2
    · simp only [isSpace, isMulti, Bool.or_eq_true] at *
      rcases hc with h | h <;> simp [h]
  refine cutErr_ok.2 (surround_ok (m := '>' :: rest) ?_ ?_)
  · rw [bind_ok (hk _ (typeEnd_cons (by decide))), bind_ok h3, bind_ok h4]; rfl
  · rw [ws_stop (stop_cons.2 (by decide))]; exact chr_ok _ _

theorem array_print {t : DataType} {n : BitVec 32} {rest : Text}
    (h : ∀ rest, TypeEnd rest → parseType (printType t ++ rest) = .ok t rest) :
    parseArray parseType ('[' :: (printType t ++ ';' :: ' ' :: (printNat n.toNat ++ ']' :: rest))) = .ok (.array t n) rest := by
  have h1 := ws_parseType (h (';' :: ' ' :: (printNat n.toNat ++ ']' :: rest)) (typeEnd_cons (by decide)))
  have h3 : ws (chr ';') (';' :: ' ' :: (printNat n.toNat ++ ']' :: rest)) = .ok () (' ' :: (printNat n.toNat ++ ']' :: rest)) := by
    rw [ws_stop (stop_cons.2 (by decide))]; exact chr_ok _ _
  have h4 : ws (decUint (2 ^ 32)) (' ' :: (printNat n.toNat ++ ']' :: rest)) = .ok n.toNat (']' :: rest) := by
    rw [ws_skip (by decide), ws_stop]
    · exact decUint_ok n.isLt (stop_cons.2 (by decide))
    · intro c hc
      obtain ⟨d, ds, hd⟩ : ∃ d ds, printNat n.toNat = d :: ds := by
        cases hp : printNat n.toNat with
        | nil => exact absurd hp Nat.toDigits_ne_nil
        | cons d ds => exact ⟨d, ds, rfl⟩
      have := printNat_digits n.toNat d (by rw [hd]; simp)
      rw [hd] at hc
      injection hc with hc
      subst hc
      have h2 : ∀ c ∈ digits, isMulti c = false := by decide
      exact h2 d ((isDigit_iff d).1 this)
  unfold parseArray
  have : surround '[' ']' (do let t ← ws parseType; ws (chr ';'); let n ← ws (decUint (2 ^ 32)); pure (t, n))
      ('[' :: (printType t ++ ';' :: ' ' :: (printNat n.toNat ++ ']' :: rest))) = .ok (t, n.toNat) rest := by
    refine surround_ok (m := ']' :: rest) ?_ ?_
    · rw [bind_ok h1, bind_ok h3, bind_ok h4]; rfl
    · rw [ws_stop (stop_cons.2 (by decide))]; exact chr_ok _ _
  rw [bind_ok this]
  simp only [BitVec.ofNat_toNat, BitVec.setWidth_eq]
  rfl

theorem printType_prim (p : Prim) : printType (.prim p) = (printPrim p).toList := rfl
theorem printType_vec (t : DataType) (r : Text) :
    printType (.vec t) ++ r = "vec".toList ++ '<' :: (printType t ++ '>' :: r) := by
  rw [show printType (.vec t) = "vec".toList ++ ('<' :: printType t ++ ['>']) from rfl]; simp
theorem printType_hashSet (t : DataType) (r : Text) :
    printType (.hashSet t) ++ r = "hash_set".toList ++ '<' :: (printType t ++ '>' :: r) := by
  rw [show printType (.hashSet t) = "hash_set".toList ++ ('<' :: printType t ++ ['>']) from rfl]; simp
theorem printType_option (t : DataType) (r : Text) :
    printType (.option t) ++ r = "option".toList ++ '<' :: (printType t ++ '>' :: r) := by
  rw [show printType (.option t) = "option".toList ++ ('<' :: printType t ++ ['>']) from rfl]; simp
theorem printType_nonZero (t : DataType) (r : Text) :
    printType (.nonZero t) ++ r = "non_zero".toList ++ '<' :: (printType t ++ '>' :: r) := by
  rw [show printType (.nonZero t) = "non_zero".toList ++ ('<' :: printType t ++ ['>']) from rfl]; simp
theorem printType_hashMap (k v : DataType) (r : Text) : printType (.hashMap k v) ++ r =
    "hash_map".toList ++ '<' :: (printType k ++ ',' :: ' ' :: (printType v ++ '>' :: r)) := by
  rw [show printType (.hashMap k v) =
    "hash_map".toList ++ ('<' :: printType k ++ [',', ' '] ++ printType v ++ ['>']) from rfl]; simp
theorem printType_tuple (ts : List DataType) (tr : Bool) (r : Text) : printType (.tuple ts tr) ++ r =
    '(' :: (printTypes ts tr ++ ')' :: r) := by
  rw [show printType (.tuple ts tr) = ['('] ++ printTypes ts tr ++ [')'] from rfl]; simp
theorem printType_array (t : DataType) (n : BitVec 32) (r : Text) : printType (.array t n) ++ r =
    '[' :: (printType t ++ ';' :: ' ' :: (printNat n.toNat ++ ']' :: r)) := by
  rw [show printType (.array t n) = ['['] ++ printType t ++ [';', ' '] ++ printNat n.toNat ++ [']'] from rfl]; simp
theorem printType_ext0 (path : List String) (name : String) (tr : Bool) (r : Text) :
    printType (.external path name [] tr) ++ r = printPath path ++ (name.toList ++ r) := by
  rw [show printType (.external path name [] tr) = printPath path ++ name.toList ++ [] from rfl]; simp
theorem printType_ext (path : List String) (name : String) (t : DataType) (ts : List DataType) (tr : Bool) (r : Text) :
    printType (.external path name (t :: ts) tr) ++ r =
      printPath path ++ (name.toList ++ '<' :: (printTypes (t :: ts) tr ++ '>' :: r)) := by
  rw [show printType (.external path name (t :: ts) tr) =
    printPath path ++ name.toList ++ (['<'] ++ printTypes (t :: ts) tr ++ ['>']) from rfl]; simp

mutual
theorem parseType_print : ∀ t : DataType, TypeOk t → ∀ rest, TypeEnd rest → parseType (printType t ++ rest) = .ok t rest
  | .prim p, _, rest, hr => by rw [printType_prim]; exact prim_print p hr
  | .vec t, h, rest, _ => by
    rw [TypeOk] at h
    have := parseType_print t h ('>' :: rest) (typeEnd_cons (by decide))
    rw [printType_vec]
    refine parseType_generic (w := "vec") (by decide) ?_
    rw [generic_vec, bind_ok (parseSingle_print this)]; rfl
  | .hashSet t, h, rest, _ => by
    rw [TypeOk] at h
    have := parseType_print t h ('>' :: rest) (typeEnd_cons (by decide))
    rw [printType_hashSet]
    refine parseType_generic (w := "hash_set") (by decide) ?_
    rw [generic_hashSet, bind_ok (parseSingle_print this)]; rfl
  | .option t, h, rest, _ => by
    rw [TypeOk] at h
    have := parseType_print t h ('>' :: rest) (typeEnd_cons (by decide))
    rw [printType_option]
    refine parseType_generic (w := "option") (by decide) ?_
    rw [generic_option, bind_ok (parseSingle_print this)]; rfl
  | .nonZero t, h, rest, _ => by
    rw [TypeOk] at h
    have := parseType_print t h ('>' :: rest) (typeEnd_cons (by decide))
    rw [printType_nonZero]
    refine parseType_generic (w := "non_zero") (by decide) ?_
    rw [generic_nonZero, bind_ok (parseSingle_print this)]; rfl
  | .hashMap k v, h, rest, _ => by
    rw [TypeOk] at h
    rw [printType_hashMap]
    refine parseType_generic (w := "hash_map") (by decide) ?_
    rw [generic_hashMap, bind_ok (pair_print (parseType_print k h.1) (parseType_print v h.2))]; rfl
  | .tuple ts trailing, h, rest, _ => by
    rw [TypeOk] at h
    rw [printType_tuple, parseType_eq]
    unfold typeBody
    rw [alt_right (parseBasic_head (by decide)), alt_right (parseGeneric_head (by decide))]
    refine alt_left ?_
    unfold parseTuple
    rw [bind_ok (types_print h.1 (.inl rfl) (parseTypes_print ts h.2))]; rfl
  | .array t n, h, rest, _ => by
    rw [TypeOk] at h
    rw [printType_array, parseType_eq]
    unfold typeBody
    rw [alt_right (parseBasic_head (by decide)), alt_right (parseGeneric_head (by decide)),
      alt_right (parseTuple_head (by decide))]
    exact alt_left (array_print (parseType_print t h))
  | .external path name generics trailing, h, rest, hr => by
    rw [TypeOk] at h
    obtain ⟨h1, h2, h3, h4, h5⟩ := h
    have hname : ∀ r, Stop isExtChar r → parseExternalName (name.toList ++ r) = .ok name r := fun r hr' =>
      name_print ((refName_iff name).1 h3) hr'
    cases generics with
    | nil =>
      rw [printType_ext0, parseType_eq, typeBody_external h3 _ h1 h2, parseExternal_eq]
      obtain ⟨o, ho1, ho2⟩ := opt_path h3 rest path h1
      have hg : opt (surround '<' '>' (commaList (ws parseType))) rest = .ok none rest := by
        refine opt_none ?_
        cases rest with
        | nil => rfl
        | cons c s => exact surround_back (typeEnd_angle hr c rfl)
      rw [bind_ok ho1, bind_ok (hname _ (typeEnd_ext hr)), bind_ok hg, ho2, h5 rfl]; rfl
    | cons t ts =>
      rw [printType_ext, parseType_eq, typeBody_external h3 _ h1 h2, parseExternal_eq]
      obtain ⟨o, ho1, ho2⟩ := opt_path h3 ('<' :: (printTypes (t :: ts) trailing ++ '>' :: rest)) path h1
      have hg : opt (surround '<' '>' (commaList (ws parseType))) ('<' :: (printTypes (t :: ts) trailing ++ '>' :: rest)) =
          .ok (some (t :: ts, trailing)) rest :=
        opt_some (types_print (by simp) (.inr rfl) (parseTypes_print (t :: ts) h4))
      rw [bind_ok ho1, bind_ok (hname _ (stop_cons.2 (by decide))), bind_ok hg, ho2]; rfl
theorem parseTypes_print : ∀ ts : List DataType, TypeOks ts → ∀ t ∈ ts, ∀ rest, TypeEnd rest →
    parseType (printType t ++ rest) = .ok t rest
  | [], _, t, ht, _, _ => by cases ht
  | u :: us, h, t, ht, rest, hr => by
    rw [TypeOks] at h
    rcases List.mem_cons.1 ht with e | ht
    · rw [e]; exact parseType_print u h.1 rest hr
    · exact parseTypes_print us h.2 t ht rest hr
end

/-! ### What is read is well-formed -/

theorem typeOks_iff : ∀ ts : List DataType, TypeOks ts ↔ ∀ t ∈ ts, TypeOk t
  | [] => by rw [TypeOks]; simp
  | t :: ts => by rw [TypeOks, typeOks_iff ts]; simp

theorem parseBasic_ok {s r : Text} {t : DataType} (h : parseBasic s = .ok t r) : ∃ p, t = .prim p := by
  rcases alt_eq_ok h with h | ⟨_, h⟩
  · obtain ⟨w, m, _, h⟩ := bind_eq_ok h
    cases hb : basicOf (String.ofList w) with
    | none => rw [hb] at h; cases h
    | some p => rw [hb] at h; exact ⟨p, (pure_eq_ok h).1.symm⟩
  · rcases alt_eq_ok h with h | ⟨_, h⟩
    · obtain ⟨_, _, _, h⟩ := bind_eq_ok h; exact ⟨_, (pure_eq_ok h).1.symm⟩
    · obtain ⟨_, _, _, h⟩ := bind_eq_ok h; exact ⟨_, (pure_eq_ok h).1.symm⟩

theorem parseSingle_inv {p : P DataType} {Q : DataType → Prop} (hp : ∀ s t r, p s = .ok t r → Q t) {s r : Text}
    {t : DataType} (h : parseSingle p s = .ok t r) : Q t := by
  obtain ⟨_, _, _, h, _⟩ := surround_eq_ok (cutErr_ok.1 h)
  exact hp _ _ _ h

theorem sp_eq_ok {α : Type} {p : P α} {s r : Text} {a : α} (h : sp p s = .ok a r) : ∃ m, p m = .ok a r := by
  rw [sp_run] at h; exact ⟨_, h⟩
theorem ws_eq_ok {α : Type} {p : P α} {s r : Text} {a : α} (h : ws p s = .ok a r) : ∃ m, p m = .ok a r := by
  rw [ws_run] at h; exact ⟨_, h⟩

theorem parsePair_inv {p : P DataType} {Q : DataType → Prop} (hp : ∀ s t r, p s = .ok t r → Q t) {s r : Text}
    {t : DataType × DataType} (h : parsePair p s = .ok t r) : Q t.1 ∧ Q t.2 := by
  obtain ⟨_, _, _, h, _⟩ := surround_eq_ok (cutErr_ok.1 h)
  obtain ⟨k, _, h1, h⟩ := bind_eq_ok h
  obtain ⟨_, _, _, h⟩ := bind_eq_ok h
  obtain ⟨v, _, h2, h⟩ := bind_eq_ok h
  obtain ⟨_, h2⟩ := sp_eq_ok h2
  rw [← (pure_eq_ok h).1]
  exact ⟨hp _ _ _ h1, hp _ _ _ h2⟩

theorem parseGeneric_inv {p : P DataType} (hp : ∀ s t r, p s = .ok t r → TypeOk t) {s r : Text} {t : DataType}
    (h : parseGeneric p s = .ok t r) : TypeOk t := by
  obtain ⟨w, m, _, h⟩ := bind_eq_ok h
  have hs : ∀ f : DataType → DataType, (∀ t, TypeOk t → TypeOk (f t)) →
      (do let t ← parseSingle p; pure (f t) : P DataType) m = .ok t r → TypeOk t := by
    intro f hf h
    obtain ⟨u, _, h1, h⟩ := bind_eq_ok h
    rw [← (pure_eq_ok h).1]
    exact hf u (parseSingle_inv hp h1)
  simp only [] at h
  repeat' split at h
  · exact hs _ (fun t ht => by rw [TypeOk]; exact ht) h
  · obtain ⟨u, _, h1, h⟩ := bind_eq_ok h
    rw [← (pure_eq_ok h).1, TypeOk]
    exact parsePair_inv hp h1
  · exact hs _ (fun t ht => by rw [TypeOk]; exact ht) h
  · exact hs _ (fun t ht => by rw [TypeOk]; exact ht) h
  · exact hs _ (fun t ht => by rw [TypeOk]; exact ht) h
  · cases h

theorem segSep_eq_ok {s r : Text} {n : String} (h : segSep s = .ok n r) : s = n.toList ++ ':' :: ':' :: r ∧ SnakeName n := by
  obtain ⟨m, r', h1, h⟩ := bind_eq_ok h
  obtain ⟨_, r'', h2, h⟩ := bind_eq_ok h
  obtain ⟨rfl, rfl⟩ := pure_eq_ok h
  obtain ⟨rfl, h3, _⟩ := name_eq_ok h1
  rw [lit_eq_ok h2]
  exact ⟨rfl, (snakeName_iff _).2 h3⟩

theorem parseExternal_inv {p : P DataType} (hp : ∀ s t r, p s = .ok t r → TypeOk t) {s r : Text} {t : DataType}
    (h : parseExternal p s = .ok t r) (hb : parseBasic s = .back) (hg : parseGeneric p s = .back) : TypeOk t := by
  rw [parseExternal_eq] at h
  obtain ⟨o, m1, h1, h⟩ := bind_eq_ok h
  obtain ⟨name, m2, h2, h⟩ := bind_eq_ok h
  obtain ⟨g, m3, h3, h⟩ := bind_eq_ok h
  have hpath : (∀ seg ∈ o.getD [], SnakeName seg) ∧ ∀ seg, (o.getD []).head? = some seg → PathStart seg := by
    rcases opt_eq_ok h1 with ⟨path, rfl, hm⟩ | ⟨rfl, _⟩
    · obtain ⟨seg, m, h4, hm⟩ := bind_eq_ok hm
      obtain ⟨segs, m', h5, hm⟩ := bind_eq_ok hm
      obtain ⟨rfl, rfl⟩ := pure_eq_ok hm
      have ⟨e, hs⟩ := segSep_eq_ok h4
      refine ⟨fun x hx => ?_, fun x hx => ?_⟩
      · rcases List.mem_cons.1 hx with rfl | hx
        · exact hs
        · exact many_forall (fun s a r h => (segSep_eq_ok h).2) h5 x hx
      · injection hx with hx
        subst hx
        rw [e] at hb hg
        exact ⟨(parseBasic_path hs _).1.1 hb, (parseGeneric_path hs _).1.1 hg⟩
    · exact ⟨by simp, by simp⟩
  have hname : RefName name := (refName_iff name).2 (name_eq_ok h2).2.1
  rcases opt_eq_ok h3 with ⟨⟨ts, tr⟩, rfl, h3'⟩ | ⟨rfl, _⟩
  · obtain ⟨_, _, _, h4, _⟩ := surround_eq_ok h3'
    have ⟨hne, hall⟩ := commaList_forall (Q := TypeOk) (fun s t r h => by
      obtain ⟨_, h⟩ := ws_eq_ok h; exact hp _ _ _ h) h4
    rw [← (pure_eq_ok h).1, TypeOk]
    exact ⟨hpath.1, hpath.2, hname, (typeOks_iff ts).2 hall, fun e => absurd e hne⟩
  · rw [← (pure_eq_ok h).1, TypeOk]
    exact ⟨hpath.1, hpath.2, hname, by rw [TypeOks]; trivial, fun _ => rfl⟩

theorem typeBody_inv {p : P DataType} (hp : ∀ s t r, p s = .ok t r → TypeOk t) {s r : Text} {t : DataType}
    (h : typeBody p s = .ok t r) : TypeOk t := by
  rcases alt_eq_ok h with h | ⟨hb, h⟩
  · obtain ⟨q, rfl⟩ := parseBasic_ok h
    rw [TypeOk]; trivial
  rcases alt_eq_ok h with h | ⟨hg, h⟩
  · exact parseGeneric_inv hp h
  rcases alt_eq_ok h with h | ⟨_, h⟩
  · obtain ⟨⟨ts, tr⟩, _, h1, h⟩ := bind_eq_ok h
    obtain ⟨_, _, _, h4, _⟩ := surround_eq_ok h1
    have ⟨hne, hall⟩ := commaList_forall (Q := TypeOk) (fun s t r h => by
      obtain ⟨_, h⟩ := ws_eq_ok h; exact hp _ _ _ h) h4
    rw [← (pure_eq_ok h).1, TypeOk]
    exact ⟨hne, (typeOks_iff ts).2 hall⟩
  rcases alt_eq_ok h with h | ⟨_, h⟩
  · obtain ⟨⟨u, n⟩, _, h1, h⟩ := bind_eq_ok h
    obtain ⟨_, _, _, h4, _⟩ := surround_eq_ok h1
    obtain ⟨u', _, h5, h4⟩ := bind_eq_ok h4
    obtain ⟨_, _, _, h4⟩ := bind_eq_ok h4
    obtain ⟨n', _, h6, h4⟩ := bind_eq_ok h4
    obtain ⟨e, _⟩ := pure_eq_ok h4
    obtain ⟨_, h5⟩ := ws_eq_ok h5
    rw [← (pure_eq_ok h).1, TypeOk]
    injection e with e1 e2
    subst e1
    exact hp _ _ _ h5
  · exact parseExternal_inv hp h hb hg

theorem typeDepth_inv : ∀ n s t r, typeDepth n s = .ok t r → TypeOk t
  | 0, _, _, _, h => by cases h
  | n + 1, _, _, _, h => typeBody_inv (typeDepth_inv n) h

theorem parseType_inv {s r : Text} {t : DataType} (h : parseType s = .ok t r) : TypeOk t := typeDepth_inv _ s t r h

end Mabo.Parse
