import Verif.Parser.SchemaRound
/-! Definitions and schemas that are printed are read back. -/
namespace Mabo.Parse
open Mabo.Ast Mabo.Spec

/-! ### Lists -/

/-- All texts but the first with a space in front. -/
def spaced : List Text → List Text
  | [] => []
  | t :: ts => t :: ts.map (' ' :: ·)

theorem inline_go (trailing : Bool) : ∀ ts : List Text, inline.go trailing ts = joinItems (spaced ts) trailing
  | [] => rfl
  | [t] => rfl
  | t :: u :: ts => by
    have ih := inline_go trailing (u :: ts)
    show t ++ ", ".toList ++ inline.go trailing (u :: ts) = t ++ ',' :: joinItems ((' ' :: u) :: ts.map (' ' :: ·)) trailing
    have h : ∀ (l : List Text), joinItems ((' ' :: u) :: l) trailing = ' ' :: joinItems (u :: l) trailing := by
      intro l; cases l <;> rfl
    rw [ih, h]
    simp [spaced]

theorem block_go (trailing : Bool) : ∀ ts : List Text, ts ≠ [] →
    '\n' :: block.go trailing ts = joinItems (ts.map ('\n' :: ·)) trailing
  | [], h => absurd rfl h
  | [t], _ => rfl
  | t :: u :: ts, _ => by
    have ih := block_go trailing (u :: ts) (by simp)
    show '\n' :: (t ++ ",\n".toList ++ block.go trailing (u :: ts)) = ('\n' :: t) ++ ',' :: joinItems ((u :: ts).map ('\n' :: ·)) trailing
    rw [← ih]
    simp

/-- What can follow an item of a list. -/
def End (r : Text) : Prop := ∃ c cs, r = c :: cs ∧ c ∈ [',', '\n', ')', '>']

theorem end_stop {f : Char → Bool} (hf : ∀ c ∈ [',', '\n', ')', '>'], f c = false) {r : Text} (h : End r) :
    Stop f r := by
  obtain ⟨c, cs, rfl, hc⟩ := h
  exact stop_cons.2 (hf c hc)

theorem inline_print {α : Type} {p : P α} (hp : Eats p) {f : α → Text} {o c : Char} (hc : c = ')' ∨ c = '>')
    (hpc : ∀ r, p (c :: r) = .back) {as : List α} (hne : as ≠ []) (trailing : Bool)
    (hi : ∀ a ∈ as, ∀ w, w = [] ∨ w = [' '] → ∀ rest, End rest → p (w ++ (f a ++ rest)) = .ok a rest) (r : Text) :
    surround o c (commaList p) (inline o c (as.map f) trailing ++ r) = .ok (as, trailing) r := by
  cases as with
  | nil => exact absurd rfl hne
  | cons a as =>
    have key := surround_commaList hp (B := End) (fun r => ⟨',', r, rfl, by simp⟩) (o := o) (c := c) (gap := []) (rest := r)
      (by simp) (by rcases hc with rfl | rfl <;> decide) (by rcases hc with rfl | rfl <;> decide)
      ⟨c, r, rfl, by rcases hc with rfl | rfl <;> simp⟩ (hpc r) trailing
      ((a, f a) :: as.map fun b => (b, ' ' :: f b)) (by simp) (by
        intro i him rest hr
        rcases List.mem_cons.1 him with rfl | him
        · exact hi a (by simp) [] (.inl rfl) rest hr
        · obtain ⟨b, hb, rfl⟩ := List.mem_map.1 him
          exact hi b (by simp [hb]) [' '] (.inr rfl) rest hr)
    have e1 : ((a, f a) :: as.map fun b => (b, ' ' :: f b)).map (·.1) = a :: as := by simp [Function.comp_def]
    have e2 : ((a, f a) :: as.map fun b => (b, ' ' :: f b)).map (·.2) = spaced ((a :: as).map f) := by
      simp [spaced, Function.comp_def]
    rw [e1, e2] at key
    rw [← key, inline, inline_go]
    simp

theorem block_print {α : Type} {p : P α} (hp : Eats p) {f : α → Text} {level : Nat}
    (hpc : ∀ r, p ('\n' :: (indent level ++ '}' :: r)) = .back) {as : List α} (hne : as ≠ []) (trailing : Bool)
    (hi : ∀ a ∈ as, ∀ rest, End rest → p ('\n' :: (f a ++ rest)) = .ok a rest) (r : Text) :
    surround '{' '}' (commaList p) (block level (as.map f) trailing ++ r) = .ok (as, trailing) r := by
  have key := surround_commaList hp (B := End) (fun r => ⟨',', r, rfl, by simp⟩) (o := '{') (c := '}')
    (gap := '\n' :: indent level) (rest := r) (by
      intro d hd
      rcases List.mem_cons.1 hd with rfl | hd
      · decide
      · exact space_multi (blank_indent level d hd)) (by decide) (by decide)
    ⟨'\n', _, rfl, by simp⟩ (hpc r) trailing (as.map fun b => (b, '\n' :: f b)) (by simpa using hne) (by
      intro i him rest hr
      obtain ⟨b, hb, rfl⟩ := List.mem_map.1 him
      exact hi b hb rest hr)
  have e1 : (as.map fun b => (b, '\n' :: f b)).map (·.1) = as := by simp [Function.comp_def]
  have e2 : (as.map fun b => (b, '\n' :: f b)).map (·.2) = (as.map f).map ('\n' :: ·) := by simp [Function.comp_def]
  rw [e1, e2, ← block_go trailing (as.map f) (by simpa using hne)] at key
  rw [← key, block]
  simp

theorem blank_space : Blank [' '] := by show ∀ d ∈ _, _; decide

theorem blank_opt {w : Text} (h : w = [] ∨ w = [' ']) : Blank w := by
  rcases h with rfl | rfl
  · exact blank_nil
  · exact blank_space

/-! ### Fields -/

theorem end_typeEnd {r : Text} (h : End r) : TypeEnd r := by
  obtain ⟨c, cs, rfl, hc⟩ := h
  refine typeEnd_cons ?_
  have : ∀ c ∈ [',', '\n', ')', '>'], c ∉ lowers ++ uppers ++ digits ++ ['_', '&', '<'] := by decide
  exact this c hc

theorem parseId_print (id : BitVec 32) {r : Text} (hr : Stop isDigit r) : parseId (printId id ++ r) = .ok id r := by
  unfold parseId printId
  rw [List.cons_append, bind_ok (chr_ok _ _), bind_ok (decUint_ok id.isLt hr)]
  simp only [BitVec.ofNat_toNat, BitVec.setWidth_eq]; rfl

theorem optId_print (o : Option (BitVec 32)) {r w : Text} (hw : Blank w) (hr : End r) :
    optId (w ++ (printOptId o ++ r)) = .ok o (match o with | none => w ++ r | some _ => r) := by
  cases o with
  | none =>
    refine opt_none ?_
    show sp parseId (w ++ r) = _
    rw [sp_blank hw, sp_stop (end_stop (by decide) hr)]
    obtain ⟨c, cs, rfl, hc⟩ := hr
    refine bind_back (chr_back _ ?_)
    rintro rfl; exact absurd hc (by decide)
  | some id =>
    refine opt_some ?_
    show sp parseId (w ++ (' ' :: (printId id ++ r))) = _
    rw [sp_blank hw, sp_skip (by decide), sp_stop (by exact stop_cons.2 (by decide))]
    exact parseId_print id (end_stop (by decide) hr)

theorem typeEnd_optId (o : Option (BitVec 32)) {r : Text} (hr : End r) : TypeEnd (printOptId o ++ r) := by
  cases o with
  | none => exact end_typeEnd hr
  | some id => exact typeEnd_cons (by decide)

theorem lower_starts {c : Char} (h : isLower c = true) : Starts c :=
  ⟨lower_not_multi h, by rintro rfl; exact absurd h (by decide)⟩

theorem upper_starts {c : Char} (h : isUpper c = true) : Starts c := by
  rw [isUpper_iff] at h
  have : ∀ c ∈ uppers, isMulti c = false ∧ c ≠ '/' := by decide
  exact this c h

theorem camel_head {n : String} (h : CamelName n) : ∃ c cs, n.toList = c :: cs ∧ isUpper c = true := by
  obtain ⟨c, cs, h1, h2, _⟩ := (camelName_iff n).1 h
  exact ⟨c, cs, h1, h2⟩

theorem camel_print {n : String} (h : CamelName n) {r : Text} (hr : Stop isAlnum r) :
    parseCamel (n.toList ++ r) = .ok n r := name_print ((camelName_iff n).1 h) hr

theorem sp_type {t : DataType} (h : TypeOk t) {r : Text} (hr : TypeEnd r) :
    sp parseType (' ' :: (printType t ++ r)) = .ok t r := by
  have hp := parseType_print t h r hr
  rw [sp_skip (by decide), sp_stop]
  · exact hp
  · intro c hc
    exact multi_space (parseType_stop hp c hc)

theorem named_print {level : Nat} {f : NamedField} (h : NamedFieldWf f) {r : Text} (hr : End r) :
    parseNamedField ('\n' :: (printNamedField level f ++ r)) = .ok f r := by
  obtain ⟨h1, h2, h3⟩ := h
  obtain ⟨c, cs, hn, hc⟩ := snake_head h2
  have e : '\n' :: (printNamedField level f ++ r) = ['\n'] ++ (printComment level f.comment ++ (indent level ++
      c :: (cs ++ (':' :: ' ' :: (printType f.ty ++ (printOptId f.id ++ r)))))) := by
    rw [printNamedField, hn]; simp
  obtain ⟨ind', hi', hcom⟩ := ws_comments (level := level) h1 (w := ['\n']) (by decide) (blank_indent level)
    (lower_starts hc) (s := cs ++ (':' :: ' ' :: (printType f.ty ++ (printOptId f.id ++ r))))
  have e2 : c :: (cs ++ (':' :: ' ' :: (printType f.ty ++ (printOptId f.id ++ r)))) =
      f.name.toList ++ (':' :: ' ' :: (printType f.ty ++ (printOptId f.id ++ r))) := by rw [hn]; simp
  rw [e2] at hcom e
  have hname : sp parseSegment (ind' ++ (f.name.toList ++ (':' :: ' ' :: (printType f.ty ++ (printOptId f.id ++ r))))) =
      .ok f.name (':' :: ' ' :: (printType f.ty ++ (printOptId f.id ++ r))) := by
    rw [sp_blank hi', sp_stop (by rw [hn]; exact stop_cons.2 (multi_space (lower_starts hc).1))]
    exact segment_print h2 (stop_cons.2 (by decide))
  have hcolon : ∀ m, sp (chr ':') (':' :: m) = .ok () m := fun m => by
    rw [sp_stop (stop_cons.2 (by decide))]; exact chr_ok _ _
  have hid := optId_print f.id blank_nil hr
  rw [List.nil_append] at hid
  unfold parseNamedField
  rw [e, bind_ok hcom, bind_ok hname, bind_ok (hcolon _), bind_ok (sp_type h3 (typeEnd_optId f.id hr)), bind_ok hid]
  cases f with
  | mk comment name ty id => cases id <;> rfl

theorem named_close {level : Nat} (r : Text) : parseNamedField ('\n' :: (indent level ++ '}' :: r)) = .back := by
  obtain ⟨ind', hi', hcom⟩ := ws_comments (level := 0) (lines := []) (fun _ h => by cases h) (w := ['\n']) (by decide)
    (blank_indent level) (c := '}') ⟨by decide, by decide⟩ (s := r)
  have hcom' : ws parseComments ('\n' :: (indent level ++ '}' :: r)) = .ok [] (ind' ++ '}' :: r) := hcom
  unfold parseNamedField
  rw [bind_ok hcom']
  refine bind_back ?_
  rw [sp_blank hi', sp_stop (stop_cons.2 (by decide))]
  exact name_back (stop_cons.2 (by decide))

theorem unnamed_print {f : UnnamedField} (h : TypeOk f.ty) {w : Text} (hw : w = [] ∨ w = [' ']) {r : Text} (hr : End r) :
    parseUnnamedField (w ++ (printUnnamedField f ++ r)) = .ok f r := by
  have hid := optId_print f.id blank_nil hr
  rw [List.nil_append] at hid
  have ht : ws parseType (w ++ (printType f.ty ++ (printOptId f.id ++ r))) = .ok f.ty (printOptId f.id ++ r) := by
    rw [ws_blank (blank_opt hw)]
    exact ws_parseType (parseType_print f.ty h _ (typeEnd_optId f.id hr))
  unfold parseUnnamedField
  rw [printUnnamedField, List.append_assoc, bind_ok ht, bind_ok hid]
  cases f with
  | mk ty id => cases id <;> rfl

theorem unnamed_close (r : Text) : parseUnnamedField (')' :: r) = .back := by
  refine bind_back ?_
  rw [ws_stop (stop_cons.2 (by decide))]
  exact parseType_head (by decide) (by decide) (by decide) (by decide)

/-- Fields, up to some blanks and a character that does not open a list. -/
theorem fields_print (level : Nat) {fs : Fields} (h : FieldsWf fs) {w r : Text} {d : Char} (hw : Blank w)
    (hd : isSpace d = false) (h1 : d ≠ '{') (h2 : d ≠ '(') :
    ∃ w', Blank w' ∧ (w = [] → w' = []) ∧
      sp parseFields (printFields level fs ++ (w ++ d :: r)) = .ok fs (w' ++ d :: r) := by
  cases fs with
  | unit =>
    refine ⟨[], blank_nil, fun _ => rfl, ?_⟩
    show sp parseFields (w ++ d :: r) = _
    rw [sp_blank hw, sp_stop (stop_cons.2 hd)]
    unfold parseFields
    rw [bind_ok (peekAny_cons _ _), if_neg h1, if_neg h2]; rfl
  | named fs t =>
    refine ⟨w, hw, fun h => h, ?_⟩
    obtain ⟨hne, hf⟩ := h
    show sp parseFields (' ' :: (block level (fs.map (printNamedField (level + 1))) t ++ (w ++ d :: r))) = _
    have hb := block_print eats_parseNamedField (f := printNamedField (level + 1)) (level := level)
      (fun r => named_close r) hne t (fun a ha rest hr => named_print (hf a ha) hr) (w ++ d :: r)
    rw [sp_skip (by decide), sp_stop (by exact stop_cons.2 (by decide))]
    unfold parseFields
    have hpk : peekAny (block level (fs.map (printNamedField (level + 1))) t ++ (w ++ d :: r)) =
        .ok '{' (block level (fs.map (printNamedField (level + 1))) t ++ (w ++ d :: r)) := rfl
    rw [bind_ok hpk, if_pos rfl, bind_ok hb]; rfl
  | unnamed fs t =>
    refine ⟨w, hw, fun h => h, ?_⟩
    obtain ⟨hne, hf⟩ := h
    show sp parseFields (inline '(' ')' (fs.map printUnnamedField) t ++ (w ++ d :: r)) = _
    have hb := inline_print eats_parseUnnamedField (f := printUnnamedField) (o := '(') (c := ')') (.inl rfl) unnamed_close hne t
      (fun a ha w hw rest hr => unnamed_print (hf a ha) hw hr) (w ++ d :: r)
    rw [sp_stop (by exact stop_cons.2 (by decide))]
    unfold parseFields
    have hpk : peekAny (inline '(' ')' (fs.map printUnnamedField) t ++ (w ++ d :: r)) =
        .ok '(' (inline '(' ')' (fs.map printUnnamedField) t ++ (w ++ d :: r)) := rfl
    rw [bind_ok hpk, if_neg (by decide), if_pos rfl, bind_ok hb]; rfl

theorem generics_print {gs : List String} {t : Bool} (h : TypeParamsWf gs t) {r : Text} (hr : ∀ c, r.head? = some c → c ≠ '<') :
    parseGenerics (printGenerics gs t ++ r) = .ok (gs, t) r := by
  obtain ⟨h1, h2⟩ := h
  unfold parseGenerics printGenerics
  by_cases hg : gs = []
  · rw [if_pos hg, List.nil_append]
    have : surround '<' '>' (commaList (ws parseCamel)) r = .back := by
      cases r with
      | nil => rfl
      | cons c r => exact surround_back (hr c rfl)
    rw [bind_ok (opt_none this), hg, h2 hg]; rfl
  · rw [if_neg hg]
    have hb := inline_print (p := ws parseCamel) (eats_ws (eats_name _ _)) (f := String.toList) (o := '<') (c := '>')
      (.inr rfl) (fun r => by rw [ws_stop (stop_cons.2 (by decide))]; exact name_back (stop_cons.2 (by decide))) hg t
      (fun a ha w hw rest hr => by
        obtain ⟨c, cs, hc, hu⟩ := camel_head (h1 a ha)
        rw [ws_blank (blank_opt hw), ws_stop (by rw [hc]; exact stop_cons.2 (upper_starts hu).1)]
        exact camel_print (h1 a ha) (end_stop (by decide) hr)) r
    rw [bind_ok (opt_some hb)]; rfl

theorem generics_stop {gs : List String} {t : Bool} {f : Char → Bool} (hf : f '<' = false) {r : Text} (hr : Stop f r) :
    Stop f (printGenerics gs t ++ r) := by
  unfold printGenerics
  split
  · exact hr
  · exact stop_cons.2 hf

/-! ### Variants -/

theorem variant_print {level : Nat} {v : Variant} (h : VariantWf v) {r : Text} (hr : End r) :
    parseVariant ('\n' :: (printVariant level v ++ r)) = .ok v r := by
  obtain ⟨h1, h2, h3⟩ := h
  obtain ⟨c, cs, hn, hc⟩ := camel_head h2
  have e : '\n' :: (printVariant level v ++ r) = ['\n'] ++ (printComment level v.comment ++ (indent level ++
      c :: (cs ++ (printFields level v.fields ++ (printOptId v.id ++ r))))) := by
    rw [printVariant, hn]; simp
  obtain ⟨ind', hi', hcom⟩ := ws_comments (level := level) h1 (w := ['\n']) (by decide) (blank_indent level)
    (upper_starts hc) (s := cs ++ (printFields level v.fields ++ (printOptId v.id ++ r)))
  have e2 : c :: (cs ++ (printFields level v.fields ++ (printOptId v.id ++ r))) =
      v.name.toList ++ (printFields level v.fields ++ (printOptId v.id ++ r)) := by rw [hn]; simp
  rw [e2] at hcom e
  -- what follows the fields
  obtain ⟨w, d, m, hw, hm, hd, hd1, hd2, hid⟩ : ∃ w d m, Blank w ∧ printOptId v.id ++ r = w ++ d :: m ∧ isSpace d = false ∧
      d ≠ '{' ∧ d ≠ '(' ∧ ∀ w', Blank w' → (w = [] → w' = []) → optId (w' ++ d :: m) = .ok v.id r := by
    cases hv : v.id with
    | none =>
      obtain ⟨d, m, rfl, hd⟩ := hr
      have hall : ∀ d ∈ [',', '\n', ')', '>'], isSpace d = false ∧ d ≠ '{' ∧ d ≠ '(' := by decide
      obtain ⟨a1, a2, a3⟩ := hall d hd
      refine ⟨[], d, m, blank_nil, rfl, a1, a2, a3, fun w' _ he => ?_⟩
      rw [he rfl]
      exact optId_print none blank_nil ⟨d, m, rfl, hd⟩
    | some id =>
      refine ⟨[' '], '@', printNat id.toNat ++ r, blank_space, rfl, by decide, by decide, by decide, fun w' hw' _ => ?_⟩
      refine opt_some ?_
      rw [sp_blank hw', sp_stop (stop_cons.2 (by decide))]
      exact parseId_print id (end_stop (by decide) hr)
  obtain ⟨w', hw', he', hf⟩ := fields_print level h3 (r := m) hw hd hd1 hd2
  have hstop : Stop isAlnum (printFields level v.fields ++ (printOptId v.id ++ r)) := by
    cases v.fields with
    | named fs t => exact stop_cons.2 (by decide)
    | unnamed fs t => exact stop_cons.2 (by decide)
    | unit =>
      cases v.id with
      | none => exact end_stop (by decide) hr
      | some id => exact stop_cons.2 (by decide)
  have hname : sp parseCamel (ind' ++ (v.name.toList ++ (printFields level v.fields ++ (printOptId v.id ++ r)))) =
      .ok v.name (printFields level v.fields ++ (printOptId v.id ++ r)) := by
    rw [sp_blank hi', sp_stop (by rw [hn]; exact stop_cons.2 (multi_space (upper_starts hc).1))]
    exact camel_print h2 hstop
  rw [hm] at hname
  unfold parseVariant
  rw [e, bind_ok hcom, hm, bind_ok hname, bind_ok hf, bind_ok (hid w' hw' he')]
  rfl

theorem variant_close {level : Nat} (r : Text) : parseVariant ('\n' :: (indent level ++ '}' :: r)) = .back := by
  obtain ⟨ind', hi', hcom⟩ := ws_comments (level := 0) (lines := []) (fun _ h => by cases h) (w := ['\n']) (by decide)
    (blank_indent level) (c := '}') ⟨by decide, by decide⟩ (s := r)
  have hcom' : ws parseComments ('\n' :: (indent level ++ '}' :: r)) = .ok [] (ind' ++ '}' :: r) := hcom
  unfold parseVariant
  rw [bind_ok hcom']
  refine bind_back ?_
  rw [sp_blank hi', sp_stop (stop_cons.2 (by decide))]
  exact name_back (stop_cons.2 (by decide))

end Mabo.Parse
