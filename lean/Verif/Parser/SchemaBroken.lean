import Verif.Parser.SchemaInv
/-! Schemas with literals that cannot be read back: their printed form is rejected as a whole. -/
namespace Mabo.Parse
open Mabo.Ast Mabo.Spec

/-- The literal's text does not start with a blank and is not read as a literal. -/
def Broken (std : Std) (l : Literal) : Prop := ∀ r, LiteralEnd r →
  Stop isSpace (printLiteral std l ++ r) ∧ ∀ a m, parseLiteral std (printLiteral std l ++ r) ≠ .ok a m

theorem notOk_cut {α : Type} {p : P α} {s : Text} (h : ∀ a m, p s ≠ .ok a m) : cutErr p s = .cut := by
  unfold cutErr
  cases hp : p s with
  | ok a m => exact absurd hp (h a m)
  | back => rfl
  | cut => rfl

theorem bind_notOk {α β : Type} {p : P α} {f : α → P β} {s : Text} (h : ∀ a m, p s ≠ .ok a m) :
    ∀ a m, (p >>= f) s ≠ .ok a m := fun a m he => by
  obtain ⟨b, m', h1, _⟩ := bind_eq_ok he
  exact h b m' h1

theorem bind_notOk_right {α β : Type} {p : P α} {f : α → P β} {s r : Text} {b : α} (h1 : p s = .ok b r)
    (h : ∀ a m, f b r ≠ .ok a m) : ∀ a m, (p >>= f) s ≠ .ok a m := by
  rw [bind_ok h1]; exact h

theorem many_cut {α : Type} {p : P α} {s : Text} (h : p s = .cut) : many p s = .cut := by
  simp only [many, manyAux, h]

theorem many_cut_right {α : Type} {p : P α} {s r : Text} {a : α} (hp : Eats p) (h : p s = .ok a r)
    (h' : many p r = .cut) : many p s = .cut := by
  have hl := hp _ _ _ h
  rw [many, manyAux]
  simp only [h]
  rw [if_neg (by omega), manyAux_enough hp s.length (r.length + 1) r hl (by omega)]
  rw [many] at h'
  rw [h']

theorem opt_ok_or_cut {α : Type} {p : P α} {s : Text} (h : ∀ a m, p s ≠ .ok a m) :
    opt p s = .cut ∨ opt p s = .ok none s := by
  unfold opt
  cases hp : p s with
  | ok a m => exact absurd hp (h a m)
  | back => exact .inr rfl
  | cut => exact .inl rfl

/-! ### Attributes -/

/-- A printed attribute with a broken literal: a final error, or its value is not read at all. -/
def AttrFails (std : Std) (a : Attribute) : Prop := ∀ r, AttrEnd r →
  parseAttr std (printAttr std a ++ r) = .cut ∨ ∃ b m, parseAttr std (printAttr std a ++ r) = .ok b (' ' :: '=' :: m)

theorem single_broken (std : Std) {n : String} {l : Literal} (h : Broken std l) {r : Text} (hr : AttrEnd r) :
    ∀ a m, attrSingle std n (' ' :: '=' :: ' ' :: (printLiteral std l ++ r)) ≠ .ok a m := by
  have ⟨hs, hb⟩ := h r (attrEnd_literal hr)
  have h1 : space0 (' ' :: '=' :: ' ' :: (printLiteral std l ++ r)) = .ok [' '] ('=' :: ' ' :: (printLiteral std l ++ r)) :=
    takeWhile_ok (w := [' ']) (by decide) (stop_cons.2 (by decide)) (by omega)
  have h2 : space0 (' ' :: (printLiteral std l ++ r)) = .ok [' '] (printLiteral std l ++ r) :=
    takeWhile_ok (w := [' ']) (by decide) hs (by omega)
  unfold attrSingle
  rw [bind_ok h1, bind_ok (chr_ok _ _), bind_ok h2]
  exact bind_notOk hb

/-- Every attribute of the list is read back or fails. -/
def Split (std : Std) (as : List Attribute) : Prop := ∀ a ∈ as, AttrWf a ∧
  (AttrFails std a ∨ ∀ r, AttrEnd r → parseAttr std (printAttr std a ++ r) = .ok a r)

theorem attrs_sep_fails (std : Std) {close : Char} (hclose : close = ')' ∨ close = ']') (r : Text) :
    ∀ (as : List Attribute), Split std as → (∃ a ∈ as, AttrFails std a) →
    (separated1 (ws (parseAttr std)) (ws (chr ',')) (printAttrs std as ++ close :: r) = .cut ∨
      ∃ xs m, separated1 (ws (parseAttr std)) (ws (chr ',')) (printAttrs std as ++ close :: r) = .ok xs (' ' :: '=' :: m)) ∧
    (many (do let _ ← ws (chr ','); ws (parseAttr std)) (',' :: ' ' :: (printAttrs std as ++ close :: r)) = .cut ∨
      ∃ xs m, many (do let _ ← ws (chr ','); ws (parseAttr std)) (',' :: ' ' :: (printAttrs std as ++ close :: r)) =
        .ok xs (' ' :: '=' :: m))
  | [], _, ⟨_, h, _⟩ => by cases h
  | a :: as, h, hex => by
    have ⟨hwf, hp⟩ := h a (by simp)
    obtain ⟨c, cs, h1, h2⟩ := attr_head std hwf
    have heats : Eats (do let _ ← ws (chr ','); ws (parseAttr std)) :=
      eats_bind_left (eats_ws (eats_chr _)) fun _ => mono_ws (mono_parseAttr std)
    have hws : ∀ m, ws (parseAttr std) (printAttr std a ++ m) = parseAttr std (printAttr std a ++ m) := fun m =>
      ws_stop (by rw [h1]; exact stop_cons.2 (lower_not_multi h2))
    have hcomma : ∀ m, ws (chr ',') (',' :: ' ' :: m) = .ok () (' ' :: m) := fun m => by
      rw [ws_stop (stop_cons.2 (by decide))]; exact chr_ok _ _
    have hstop : ∀ m, (do let _ ← ws (chr ','); ws (parseAttr std)) (' ' :: '=' :: m) = .back := fun m => by
      refine bind_back ?_
      rw [ws_skip (by decide), ws_stop (stop_cons.2 (by decide))]; exact chr_back _ (by decide)
    -- the text after the first attribute
    obtain ⟨m, e, hm, hrest⟩ : ∃ m, printAttrs std (a :: as) ++ close :: r = printAttr std a ++ m ∧ AttrEnd m ∧
        ((∃ b ∈ as, AttrFails std b) →
          (many (do let _ ← ws (chr ','); ws (parseAttr std)) m = .cut ∨
            ∃ xs m', many (do let _ ← ws (chr ','); ws (parseAttr std)) m = .ok xs (' ' :: '=' :: m'))) := by
      cases as with
      | nil =>
        exact ⟨close :: r, rfl, ⟨close, r, rfl, by rcases hclose with rfl | rfl <;> simp⟩, fun ⟨_, h, _⟩ => by cases h⟩
      | cons b as =>
        refine ⟨',' :: ' ' :: (printAttrs std (b :: as) ++ close :: r), by rw [printAttrs_cons]; simp,
          ⟨',', _, rfl, by simp⟩, fun hex' => ?_⟩
        exact (attrs_sep_fails std hclose r (b :: as) (fun x hx => h x (by simp [hx])) hex').2
    rw [e]
    rcases hp with hf | hp
    · rcases hf m hm with hc | ⟨b, m', hb⟩
      · refine ⟨.inl ?_, .inl ?_⟩
        · unfold separated1
          exact bind_cut (by rw [hws]; exact hc)
        · refine many_cut ?_
          rw [bind_ok (hcomma _), ws_skip (by decide), hws]; exact hc
      · refine ⟨.inr ⟨[b], m', ?_⟩, .inr ⟨[b], m', ?_⟩⟩
        · unfold separated1
          rw [bind_ok (by rw [hws]; exact hb), bind_ok (many_back (hstop m'))]; rfl
        · refine many_ok heats (r := ' ' :: '=' :: m') ?_ (many_back (hstop m'))
          rw [bind_ok (hcomma _), ws_skip (by decide), hws]; exact hb
    · have hex' : ∃ b ∈ as, AttrFails std b := by
        obtain ⟨b, hb, hfb⟩ := hex
        rcases List.mem_cons.1 hb with rfl | hb
        · rcases hfb m hm with hc | ⟨_, _, hb⟩
          · rw [hp m hm] at hc; cases hc
          · rw [hp m hm] at hb
            injection hb with _ hb
            obtain ⟨c, cs, e, hc⟩ := hm
            rw [e] at hb
            injection hb with hb _
            rw [hb] at hc
            exact absurd hc (by decide)
        · exact ⟨b, hb, hfb⟩
      have hone : (do let _ ← ws (chr ','); ws (parseAttr std)) (',' :: ' ' :: (printAttr std a ++ m)) = .ok a m := by
        rw [bind_ok (hcomma _), ws_skip (by decide), hws]; exact hp m hm
      rcases hrest hex' with hc | ⟨xs, m', hx⟩
      · refine ⟨.inl ?_, .inl (many_cut_right heats hone hc)⟩
        unfold separated1
        rw [bind_ok (by rw [hws]; exact hp m hm)]
        exact bind_cut hc
      · refine ⟨.inr ⟨a :: xs, m', ?_⟩, .inr ⟨a :: xs, m', many_ok heats hone hx⟩⟩
        unfold separated1
        rw [bind_ok (by rw [hws]; exact hp m hm), bind_ok hx]; rfl

theorem attrList_fails (std : Std) {close : Char} (hclose : close = ')' ∨ close = ']') (r : Text) {as : List Attribute}
    (h : Split std as) (hex : ∃ a ∈ as, AttrFails std a) :
    cutErr (attrList close (parseAttr std)) (printAttrs std as ++ close :: r) = .cut := by
  refine notOk_cut ?_
  unfold attrList
  rcases (attrs_sep_fails std hclose r as h hex).1 with hc | ⟨xs, m, hx⟩
  · refine bind_notOk ?_
    rw [hc]; intro _ _ h; cases h
  · refine bind_notOk_right hx ?_
    refine bind_notOk_right (opt_none (chr_back _ (by decide))) ?_
    refine bind_notOk ?_
    rw [ws_skip (by decide), ws_stop (stop_cons.2 (by decide)),
      chr_back _ (by rcases hclose with rfl | rfl <;> decide)]
    intro _ _ h; cases h

mutual
theorem attr_split (std : Std) : ∀ a : Attribute, AttrWf a → (∀ l ∈ attrLiterals a, LitOk std l ∨ Broken std l) →
    (AttrFails std a ∨ ∀ r, AttrEnd r → parseAttr std (printAttr std a ++ r) = .ok a r) ∧
    ((∃ l ∈ attrLiterals a, Broken std l) → AttrFails std a)
  | .unit n, h, _ =>
    ⟨.inr (parseAttr_print std (.unit n) h (fun _ h => by rw [attrLiterals] at h; cases h)),
      fun ⟨_, h, _⟩ => by rw [attrLiterals] at h; cases h⟩
  | .single n l, h, hl => by
    rw [attrLiterals] at hl
    have hb : Broken std l → AttrFails std (.single n l) := by
      intro hb r hr
      rw [AttrWf] at h
      have e : printAttr std (.single n l) ++ r = n.toList ++ (' ' :: '=' :: ' ' :: (printLiteral std l ++ r)) := by
        rw [printAttr]; simp
      rw [parseAttr_eq, e]
      unfold attrBody
      rw [bind_ok (segment_print h (stop_cons.2 (by decide))), alt_right (bind_back (chr_back _ (by decide)))]
      have hs := single_broken std (n := n) hb hr
      cases hr' : attrSingle std n (' ' :: '=' :: ' ' :: (printLiteral std l ++ r)) with
      | ok a m => exact absurd hr' (hs a m)
      | back => rw [alt_right hr']; exact .inr ⟨_, _, rfl⟩
      | cut => exact .inl (by simp only [alt, hr'])
    refine ⟨?_, fun ⟨l', hl', hb'⟩ => ?_⟩
    · rcases hl l (by simp) with ho | hbr
      · exact .inr (parseAttr_print std (.single n l) h (fun l' hl' => by
          rw [attrLiterals] at hl'
          rw [List.mem_singleton.1 hl']; exact ho))
      · exact .inl (hb hbr)
    · rw [attrLiterals] at hl'
      rw [List.mem_singleton.1 hl'] at hb'
      exact hb hb'
  | .multi n [], h, _ => by rw [AttrWf] at h; exact absurd rfl h.2.1
  | .multi n (a :: as), h, hl => by
    have hwf := h
    rw [AttrWf] at h
    rw [attrLiterals] at hl
    obtain ⟨ih1, ih2⟩ := attrs_split std (a :: as) h.2.2 hl
    have hfail : (∃ b ∈ a :: as, AttrFails std b) → AttrFails std (.multi n (a :: as)) := by
      intro hex r hr
      have e : printAttr std (.multi n (a :: as)) ++ r = n.toList ++ ('(' :: (printAttrs std (a :: as) ++ ')' :: r)) := by
        rw [printAttr]
        · simp
        · simp
      left
      rw [parseAttr_eq, e]
      unfold attrBody
      rw [bind_ok (segment_print h.1 (stop_cons.2 (by decide)))]
      have : (do chr '('; let as ← cutErr (attrList ')' (parseAttr std)); pure (.multi n as) : P Attribute)
          ('(' :: (printAttrs std (a :: as) ++ ')' :: r)) = .cut := by
        rw [bind_ok (chr_ok _ _)]
        exact bind_cut (attrList_fails std (.inl rfl) r ih1 hex)
      simp only [alt, this]
    constructor
    · by_cases hex : ∃ b ∈ a :: as, AttrFails std b
      · exact .inl (hfail hex)
      · right
        intro r hr
        have e : printAttr std (.multi n (a :: as)) ++ r = n.toList ++ ('(' :: (printAttrs std (a :: as) ++ ')' :: r)) := by
          rw [printAttr]
          · simp
          · simp
        have ih : ∀ b ∈ a :: as, AttrWf b ∧ ∀ r, AttrEnd r → parseAttr std (printAttr std b ++ r) = .ok b r := fun b hb =>
          ⟨(ih1 b hb).1, (ih1 b hb).2.resolve_left fun hf => hex ⟨b, hb, hf⟩⟩
        rw [parseAttr_eq, e]
        unfold attrBody
        rw [bind_ok (segment_print h.1 (stop_cons.2 (by decide)))]
        refine alt_left ?_
        rw [bind_ok (chr_ok _ _), bind_ok (cutErr_ok.2 (attrList_print std (.inl rfl) r h.2.1 ih))]; rfl
    · intro hex
      rw [attrLiterals] at hex
      exact hfail (ih2 hex)
theorem attrs_split (std : Std) : ∀ as : List Attribute, AttrsWf as → (∀ l ∈ attrsLiterals as, LitOk std l ∨ Broken std l) →
    Split std as ∧ ((∃ l ∈ attrsLiterals as, Broken std l) → ∃ a ∈ as, AttrFails std a)
  | [], _, _ => ⟨fun _ h => (nomatch h), fun ⟨_, h, _⟩ => by rw [attrsLiterals] at h; cases h⟩
  | a :: as, h, hl => by
    rw [AttrsWf] at h
    rw [attrsLiterals] at hl
    obtain ⟨h1, h2⟩ := attr_split std a h.1 fun l hm => hl l (List.mem_append.2 (.inl hm))
    obtain ⟨h3, h4⟩ := attrs_split std as h.2 fun l hm => hl l (List.mem_append.2 (.inr hm))
    refine ⟨fun b hb => ?_, fun ⟨l, hm, hb⟩ => ?_⟩
    · rcases List.mem_cons.1 hb with e | hb
      · rw [e]; exact ⟨h.1, h1⟩
      · exact h3 b hb
    · rw [attrsLiterals] at hm
      rcases List.mem_append.1 hm with hm | hm
      · exact ⟨a, by simp, h2 ⟨l, hm, hb⟩⟩
      · obtain ⟨b, hb1, hb2⟩ := h4 ⟨l, hm, hb⟩
        exact ⟨b, by simp [hb1], hb2⟩
end

/-! ### Definitions -/

/-- The frame of a definition: white space, comment, attributes, indentation; then its own parser decides. -/
theorem def_frame_cut (std : Std) {level : Nat} {com : List String} (hcom : CommentWf com) {w : Text}
    (hw : ∀ d ∈ w, isMulti d = true) {c : Char} {s : Text} (hc : Starts c) (hp : c ≠ '#')
    (hk : defKind std (parseDefinition std) (c :: s) = .cut) :
    parseDefinition std (w ++ (printComment level com ++ (indent level ++ c :: s))) = .cut := by
  obtain ⟨ind', hi', e⟩ := ws_comments (level := level) hcom hw (blank_indent level) hc (s := s)
  obtain ⟨ind'', hi'', e2⟩ := ws_attributes std (level := 0) (as := []) trivial (fun _ h => by cases h) hi' blank_nil hc hp
    (s := s)
  have e2 : ws (parseAttributes std) (ind' ++ c :: s) = .ok [] (ind'' ++ c :: s) := e2
  rw [parseDefinition_eq]
  unfold defBody
  rw [bind_ok e, bind_ok e2]
  refine bind_cut ?_
  rw [sp_blank hi'', sp_stop (stop_cons.2 (multi_space hc.1))]; exact hk

/-- Attributes that fail end the file. -/
theorem def_attrs_cut (std : Std) {level : Nat} {com : List String} (hcom : CommentWf com) {as : List Attribute}
    (hs : Split std as) (hex : ∃ a ∈ as, AttrFails std a) {w : Text} (hw : ∀ d ∈ w, isMulti d = true) (r : Text) :
    parseDefinition std (w ++ (printComment level com ++ (printAttributes std level as ++ r))) = .cut := by
  cases as with
  | nil => obtain ⟨_, h, _⟩ := hex; cases h
  | cons a as =>
    have e0 : printAttributes std level (a :: as) ++ r =
        indent level ++ '#' :: ('[' :: (printAttrs std (a :: as) ++ (']' :: '\n' :: r))) := by
      simp [printAttributes]
    obtain ⟨ind', hi', e⟩ := ws_comments (level := level) hcom hw (blank_indent level) (c := '#') ⟨by decide, by decide⟩
      (s := '[' :: (printAttrs std (a :: as) ++ (']' :: '\n' :: r)))
    rw [e0, parseDefinition_eq]
    unfold defBody
    rw [bind_ok e]
    refine bind_cut ?_
    rw [ws_blank hi', ws_stop (stop_cons.2 (by decide))]
    have h1 : parseAttribute std ('#' :: '[' :: (printAttrs std (a :: as) ++ ']' :: '\n' :: r)) = .cut := by
      unfold parseAttribute
      have h0 : ∀ m, lit "#" ('#' :: m) = .ok () m := lit_ok "#"
      rw [bind_ok (h0 _), bind_ok (chr_ok _ _)]
      exact attrList_fails std (.inr rfl) _ hs hex
    unfold parseAttributes
    exact bind_cut (many_cut (bind_cut h1))

theorem const_cut (std : Std) {c : Const} (h3 : UpperName c.name) (h4 : TypeOk c.ty) (h5 : Broken std c.value) (r : Text) :
    parseConst std ("const ".toList ++ (c.name.toList ++ ':' :: ' ' :: (printType c.ty ++
      ' ' :: '=' :: ' ' :: (printLiteral std c.value ++ ';' :: r)))) = .cut := by
  have hl : ∀ m, lit "const" ("const ".toList ++ m) = .ok () (' ' :: m) := fun m => lit_ok "const" (' ' :: m)
  have hu := (upperName_iff _).1 h3
  have hns : ∀ m, Stop isSpace (c.name.toList ++ m) := fun m => by
    obtain ⟨d, ds, h1, h2, _⟩ := hu
    rw [h1]; exact stop_cons.2 (multi_space (upper_starts h2).1)
  have hn := name_print hu (r := ':' :: ' ' :: (printType c.ty ++
      ' ' :: '=' :: ' ' :: (printLiteral std c.value ++ ';' :: r))) (stop_cons.2 (by decide))
  have ht := sp_type h4 (r := ' ' :: '=' :: ' ' :: (printLiteral std c.value ++ ';' :: r)) (typeEnd_cons (by decide))
  have ⟨hsp, hb⟩ := h5 _ (semi_literalEnd r)
  unfold parseConst
  rw [bind_ok (hl _), bind_ok (space1_one (hns _))]
  refine notOk_cut ?_
  refine bind_notOk_right hn (bind_notOk_right (chr_ok _ _) (bind_notOk_right ht (bind_notOk_right (sp_eq _) (bind_notOk ?_))))
  rw [sp_skip (by decide), sp_stop hsp]
  exact hb

mutual
theorem def_cut (std : Std) : ∀ d : Definition, DefWf d → (∀ l ∈ defLiterals d, LitOk std l ∨ Broken std l) →
    (∃ l ∈ defLiterals d, Broken std l) → ∀ (level : Nat) (w r : Text), (∀ c ∈ w, isMulti c = true) →
      parseDefinition std (w ++ (printDef std level d ++ r)) = .cut
  | .module com n ds, h, hl, hex, level, w, r, hw => by
    rw [DefWf] at h
    rw [defLiterals] at hl hex
    obtain ⟨h1, h2, h3⟩ := h
    have e : printDef std level (.module com n ds) ++ r = printComment level com ++
        (indent level ++ 'm' :: ("od ".toList ++ (n.toList ++ (' ' :: '{' :: (['\n'] ++ (printDefs std (level + 1) ds ++
          (indent level ++ '}' :: '\n' :: r))))))) := by
      rw [printDef]; simp
    have hm := defs_cut std ds h3 hl hex (level + 1) ['\n'] (indent level ++ '}' :: '\n' :: r) (by decide)
    rw [e]
    refine def_frame_cut std h1 hw ⟨by decide, by decide⟩ (by decide) ?_
    have hlit : ∀ m, lit "mod" ('m' :: ("od ".toList ++ m)) = .ok () (' ' :: m) := fun m => lit_ok "mod" (' ' :: m)
    have hn := segment_print h2 (r := ' ' :: '{' :: (['\n'] ++ (printDefs std (level + 1) ds ++
        (indent level ++ '}' :: '\n' :: r)))) (stop_cons.2 (by decide))
    have hs : sp (surround '{' '}' (many (ws (parseDefinition std)))) (' ' :: '{' :: (['\n'] ++ (printDefs std (level + 1) ds ++
        (indent level ++ '}' :: '\n' :: r)))) = .cut := by
      rw [sp_skip (by decide), sp_stop (stop_cons.2 (by decide))]
      unfold surround
      rw [bind_ok (chr_ok _ _)]
      refine notOk_cut (bind_notOk ?_)
      rw [hm]; intro _ _ h; cases h
    unfold defKind
    rw [bind_ok (peekAny_cons _ _), if_pos rfl]
    unfold parseModule
    rw [bind_ok (hlit _), bind_ok (space1_one (snake_nospace h2 _))]
    refine notOk_cut (bind_notOk_right hn (bind_notOk ?_))
    rw [hs]; intro _ _ h; cases h
  | .struct s, h, hl, hex, level, w, r, hw => by
    rw [DefWf] at h
    rw [defLiterals] at hl hex
    obtain ⟨h1, h2⟩ := attrs_split std s.attributes h.2.1 hl
    have e : ∃ m, printDef std level (.struct s) ++ r = printComment level s.comment ++
        (printAttributes std level s.attributes ++ m) := by
      rw [printDef, printStruct]; simp only [List.append_assoc]; exact ⟨_, rfl⟩
    obtain ⟨m, e⟩ := e
    rw [e]
    exact def_attrs_cut std h.1 h1 (h2 hex) hw m
  | .enum s, h, hl, hex, level, w, r, hw => by
    rw [DefWf] at h
    rw [defLiterals] at hl hex
    obtain ⟨h1, h2⟩ := attrs_split std s.attributes h.2.1 hl
    have e : ∃ m, printDef std level (.enum s) ++ r = printComment level s.comment ++
        (printAttributes std level s.attributes ++ m) := by
      rw [printDef, printEnum]; simp only [List.append_assoc]; exact ⟨_, rfl⟩
    obtain ⟨m, e⟩ := e
    rw [e]
    exact def_attrs_cut std h.1 h1 (h2 hex) hw m
  | .const k, h, hl, hex, level, w, r, hw => by
    rw [DefWf] at h
    rw [defLiterals] at hl hex
    obtain ⟨h1, h2, h3⟩ := h
    have e : printDef std level (.const k) ++ r = printComment level k.comment ++
        (indent level ++ 'c' :: ("onst ".toList ++ (k.name.toList ++ ':' :: ' ' :: (printType k.ty ++
          ' ' :: '=' :: ' ' :: (printLiteral std k.value ++ ';' :: r))))) := by
      rw [printDef, printConst]; simp
    obtain ⟨l, hm, hb⟩ := hex
    rw [List.mem_singleton.1 hm] at hb
    have hs := const_cut std h2 h3 hb r
    have hs : parseConst std ('c' :: ("onst ".toList ++ (k.name.toList ++ ':' :: ' ' :: (printType k.ty ++
          ' ' :: '=' :: ' ' :: (printLiteral std k.value ++ ';' :: r))))) = _ := hs
    rw [e]
    refine def_frame_cut std h1 hw ⟨by decide, by decide⟩ (by decide) ?_
    unfold defKind
    rw [bind_ok (peekAny_cons _ _), if_neg (by decide), if_neg (by decide), if_neg (by decide), if_pos rfl]
    exact bind_cut hs
  | .typeAlias a, _, _, ⟨_, h, _⟩, _, _, _, _ => by rw [defLiterals] at h; cases h
  | .import i, _, _, ⟨_, h, _⟩, _, _, _, _ => by rw [defLiterals] at h; cases h
theorem defs_cut (std : Std) : ∀ ds : List Definition, DefsWf ds → (∀ l ∈ defsLiterals ds, LitOk std l ∨ Broken std l) →
    (∃ l ∈ defsLiterals ds, Broken std l) → ∀ (level : Nat) (w r : Text), (∀ c ∈ w, isMulti c = true) →
      many (ws (parseDefinition std)) (w ++ (printDefs std level ds ++ r)) = .cut
  | [], _, _, ⟨_, h, _⟩, _, _, _, _ => by rw [defsLiterals] at h; cases h
  | d :: ds, h, hl, hex, level, w, r, hw => by
    rw [DefsWf] at h
    rw [defsLiterals] at hl hex
    -- the text after the first definition
    obtain ⟨m, em, hm⟩ : ∃ m, printDefs std level (d :: ds) ++ r = printDef std level d ++ m ∧
        ((∃ l ∈ defsLiterals ds, Broken std l) → ∀ w : Text, (∀ c ∈ w, isMulti c = true) →
          many (ws (parseDefinition std)) (w ++ m) = .cut) := by
      cases ds with
      | nil => exact ⟨r, rfl, fun ⟨_, h, _⟩ => by rw [defsLiterals] at h; cases h⟩
      | cons e ds =>
        refine ⟨'\n' :: (printDefs std level (e :: ds) ++ r), by rw [printDefs_cons]; simp, fun hex' w hw => ?_⟩
        have := defs_cut std (e :: ds) h.2 (fun l hm => hl l (List.mem_append.2 (.inr hm))) hex' level (w ++ ['\n']) r
          (fun c hc => by
            rcases List.mem_append.1 hc with hc | hc
            · exact hw c hc
            · rw [List.mem_singleton.1 hc]; decide)
        simpa using this
    rw [em]
    by_cases hb : ∃ l ∈ defLiterals d, Broken std l
    · refine many_cut ?_
      rw [ws_parseDefinition]
      exact def_cut std d h.1 (fun l hm => hl l (List.mem_append.2 (.inl hm))) hb level w m hw
    · have hok : ∀ l ∈ defLiterals d, LitOk std l := fun l hm =>
        (hl l (List.mem_append.2 (.inl hm))).resolve_right fun hbr => hb ⟨l, hm, hbr⟩
      have hd := parseDefinition_print std d h.1 hok level w m hw
      refine many_cut_right (eats_ws (eats_parseDefinition std)) (by rw [ws_parseDefinition]; exact hd)
        (hm ?_ (defTail d) (defTail_multi d))
      obtain ⟨l, hm, hbr⟩ := hex
      rcases List.mem_append.1 hm with hm | hm
      · exact absurd ⟨l, hm, hbr⟩ hb
      · exact ⟨l, hm, hbr⟩
end

theorem top_cut (std : Std) : ∀ ds : List Definition, DefsWf ds → (∀ l ∈ defsLiterals ds, LitOk std l ∨ Broken std l) →
    (∃ l ∈ defsLiterals ds, Broken std l) → ∀ w : Text, (∀ c ∈ w, isMulti c = true) →
      many (parseDefinition std) (w ++ printTop std ds) = .cut
  | [], _, _, ⟨_, h, _⟩, _, _ => by rw [defsLiterals] at h; cases h
  | d :: ds, h, hl, hex, w, hw => by
    rw [DefsWf] at h
    rw [defsLiterals] at hl hex
    rw [printTop]
    by_cases hb : ∃ l ∈ defLiterals d, Broken std l
    · exact many_cut (def_cut std d h.1 (fun l hm => hl l (List.mem_append.2 (.inl hm))) hb 0 w _ hw)
    · have hok : ∀ l ∈ defLiterals d, LitOk std l := fun l hm =>
        (hl l (List.mem_append.2 (.inl hm))).resolve_right fun hbr => hb ⟨l, hm, hbr⟩
      have hd := parseDefinition_print std d h.1 hok 0 w ('\n' :: printTop std ds) hw
      have hex' : ∃ l ∈ defsLiterals ds, Broken std l := by
        obtain ⟨l, hm, hbr⟩ := hex
        rcases List.mem_append.1 hm with hm | hm
        · exact absurd ⟨l, hm, hbr⟩ hb
        · exact ⟨l, hm, hbr⟩
      have ih := top_cut std ds h.2 (fun l hm => hl l (List.mem_append.2 (.inr hm))) hex' (defTail d ++ ['\n'])
        (fun c hc => by
            rcases List.mem_append.1 hc with hc | hc
            · exact defTail_multi d c hc
            · rw [List.mem_singleton.1 hc]; decide)
      refine many_cut_right (eats_parseDefinition std) hd ?_
      simpa using ih

/-- One literal that cannot be read back makes the whole printed schema unreadable. -/
theorem parseSchema_broken (std : Std) (s : Schema) (h : SchemaWf s)
    (hl : ∀ l ∈ schemaLiterals s, LitOk std l ∨ Broken std l) (hex : ∃ l ∈ schemaLiterals s, Broken std l) :
    parseSchema std (printSchema std s) = none := by
  have hm := top_cut std s.definitions h.2 hl hex [] (by simp)
  rw [List.nil_append] at hm
  have key : schemaParser std (printSchema std s) = .cut := by
    unfold schemaParser printSchema
    by_cases hc : s.comment = []
    · have e0 := opt_none (schemaComment_none std h.2)
      unfold schemaComment at e0
      rw [if_pos hc, List.nil_append, bind_ok e0]
      exact bind_cut hm
    · have e0 := opt_some (schemaComment_some h.1 hc (printTop std s.definitions))
      unfold schemaComment at e0
      rw [if_neg hc]
      simp only [List.append_assoc, List.cons_append, List.nil_append]
      rw [bind_ok e0]
      exact bind_cut hm
  unfold parseSchema
  rw [key]

/-! ### Replacing literals -/

mutual
/-- Replace the literals of an attribute. -/
def mapAttr (f : Literal → Literal) : Attribute → Attribute
  | .unit n => .unit n
  | .single n l => .single n (f l)
  | .multi n as => .multi n (mapAttrs f as)
/-- Of all of them. -/
def mapAttrs (f : Literal → Literal) : List Attribute → List Attribute
  | [] => []
  | a :: as => mapAttr f a :: mapAttrs f as
end

mutual
/-- Replace the literals of a definition. -/
def mapDef (f : Literal → Literal) : Definition → Definition
  | .module com n ds => .module com n (mapDefs f ds)
  | .struct s => .struct { s with attributes := mapAttrs f s.attributes }
  | .enum e => .enum { e with attributes := mapAttrs f e.attributes }
  | .const c => .const { c with value := f c.value }
  | .typeAlias a => .typeAlias a
  | .import i => .import i
/-- Of all of them. -/
def mapDefs (f : Literal → Literal) : List Definition → List Definition
  | [] => []
  | d :: ds => mapDef f d :: mapDefs f ds
end

theorem mapAttrs_ne {f : Literal → Literal} {as : List Attribute} (h : as ≠ []) : mapAttrs f as ≠ [] := by
  cases as with
  | nil => exact absurd rfl h
  | cons a as => rw [mapAttrs]; simp

mutual
theorem mapAttr_facts (std : Std) (f : Literal → Literal) (hf : ∀ l, printLiteral std (f l) = printLiteral std l) :
    ∀ a : Attribute, (AttrWf a → AttrWf (mapAttr f a)) ∧ attrLiterals (mapAttr f a) = (attrLiterals a).map f ∧
      printAttr std (mapAttr f a) = printAttr std a
  | .unit n => by rw [mapAttr]; exact ⟨fun h => h, rfl, rfl⟩
  | .single n l => by
    rw [mapAttr]
    refine ⟨fun h => ?_, ?_, ?_⟩
    · rw [AttrWf] at h ⊢; exact h
    · rw [attrLiterals, attrLiterals]; rfl
    · rw [printAttr, printAttr, hf]
  | .multi n [] => by
    rw [mapAttr, mapAttrs]
    exact ⟨fun h => h, rfl, rfl⟩
  | .multi n (a :: as) => by
    obtain ⟨h1, h2, h3⟩ := mapAttrs_facts std f hf (a :: as)
    rw [mapAttr]
    refine ⟨fun h => ?_, ?_, ?_⟩
    · rw [AttrWf] at h ⊢
      exact ⟨h.1, mapAttrs_ne h.2.1, h1 h.2.2⟩
    · rw [attrLiterals, attrLiterals, h2]
    · rw [mapAttrs] at h3 ⊢
      rw [printAttr, printAttr, h3]
      · simp
      · simp
theorem mapAttrs_facts (std : Std) (f : Literal → Literal) (hf : ∀ l, printLiteral std (f l) = printLiteral std l) :
    ∀ as : List Attribute, (AttrsWf as → AttrsWf (mapAttrs f as)) ∧ attrsLiterals (mapAttrs f as) = (attrsLiterals as).map f ∧
      printAttrs std (mapAttrs f as) = printAttrs std as
  | [] => by rw [mapAttrs]; exact ⟨fun h => h, rfl, rfl⟩
  | [a] => by
    obtain ⟨h1, h2, h3⟩ := mapAttr_facts std f hf a
    rw [mapAttrs, mapAttrs]
    refine ⟨fun h => ?_, ?_, ?_⟩
    · rw [AttrsWf] at h ⊢; exact ⟨h1 h.1, h.2⟩
    · rw [attrsLiterals, attrsLiterals, h2]; simp [attrsLiterals]
    · rw [printAttrs, printAttrs, h3]
  | a :: b :: as => by
    obtain ⟨h1, h2, h3⟩ := mapAttr_facts std f hf a
    obtain ⟨h4, h5, h6⟩ := mapAttrs_facts std f hf (b :: as)
    rw [mapAttrs]
    refine ⟨fun h => ?_, ?_, ?_⟩
    · rw [AttrsWf] at h ⊢; exact ⟨h1 h.1, h4 h.2⟩
    · rw [attrsLiterals, attrsLiterals, h2, h5]; simp
    · rw [mapAttrs] at h6 ⊢
      rw [printAttrs_cons, printAttrs_cons, h3, h6]
end

theorem mapAttributes_print (std : Std) (f : Literal → Literal) (hf : ∀ l, printLiteral std (f l) = printLiteral std l)
    (level : Nat) (as : List Attribute) : printAttributes std level (mapAttrs f as) = printAttributes std level as := by
  cases as with
  | nil => rw [mapAttrs]
  | cons a as =>
    have := (mapAttrs_facts std f hf (a :: as)).2.2
    rw [mapAttrs] at this ⊢
    simp only [printAttributes, this]

mutual
theorem mapDef_facts (std : Std) (f : Literal → Literal) (hf : ∀ l, printLiteral std (f l) = printLiteral std l) :
    ∀ d : Definition, (DefWf d → DefWf (mapDef f d)) ∧ defLiterals (mapDef f d) = (defLiterals d).map f ∧
      ∀ level, printDef std level (mapDef f d) = printDef std level d
  | .module com n ds => by
    obtain ⟨h1, h2, h3⟩ := mapDefs_facts std f hf ds
    rw [mapDef]
    refine ⟨fun h => ?_, ?_, fun level => ?_⟩
    · rw [DefWf] at h ⊢; exact ⟨h.1, h.2.1, h1 h.2.2⟩
    · rw [defLiterals, defLiterals, h2]
    · rw [printDef, printDef, h3]
  | .struct s => by
    obtain ⟨h1, h2, _⟩ := mapAttrs_facts std f hf s.attributes
    rw [mapDef]
    refine ⟨fun h => ?_, ?_, fun level => ?_⟩
    · rw [DefWf] at h ⊢; exact ⟨h.1, h1 h.2.1, h.2.2⟩
    · rw [defLiterals, defLiterals, h2]
    · rw [printDef, printDef, printStruct, printStruct, mapAttributes_print std f hf]
  | .enum s => by
    obtain ⟨h1, h2, _⟩ := mapAttrs_facts std f hf s.attributes
    rw [mapDef]
    refine ⟨fun h => ?_, ?_, fun level => ?_⟩
    · rw [DefWf] at h ⊢; exact ⟨h.1, h1 h.2.1, h.2.2⟩
    · rw [defLiterals, defLiterals, h2]
    · rw [printDef, printDef, printEnum, printEnum, mapAttributes_print std f hf]
  | .const c => by
    rw [mapDef]
    refine ⟨fun h => ?_, ?_, fun level => ?_⟩
    · rw [DefWf] at h ⊢; exact h
    · rw [defLiterals, defLiterals]; rfl
    · rw [printDef, printDef, printConst, printConst, hf]
  | .typeAlias a => by rw [mapDef]; exact ⟨fun h => h, rfl, fun _ => rfl⟩
  | .import i => by rw [mapDef]; exact ⟨fun h => h, rfl, fun _ => rfl⟩
theorem mapDefs_facts (std : Std) (f : Literal → Literal) (hf : ∀ l, printLiteral std (f l) = printLiteral std l) :
    ∀ ds : List Definition, (DefsWf ds → DefsWf (mapDefs f ds)) ∧ defsLiterals (mapDefs f ds) = (defsLiterals ds).map f ∧
      ∀ level, printDefs std level (mapDefs f ds) = printDefs std level ds
  | [] => by rw [mapDefs]; exact ⟨fun h => h, rfl, fun _ => rfl⟩
  | [d] => by
    obtain ⟨h1, h2, h3⟩ := mapDef_facts std f hf d
    rw [mapDefs, mapDefs]
    refine ⟨fun h => ?_, ?_, fun level => ?_⟩
    · rw [DefsWf] at h ⊢; exact ⟨h1 h.1, h.2⟩
    · rw [defsLiterals, defsLiterals, h2]; simp [defsLiterals]
    · rw [printDefs, printDefs, h3]
  | d :: e :: ds => by
    obtain ⟨h1, h2, h3⟩ := mapDef_facts std f hf d
    obtain ⟨h4, h5, h6⟩ := mapDefs_facts std f hf (e :: ds)
    rw [mapDefs]
    refine ⟨fun h => ?_, ?_, fun level => ?_⟩
    · rw [DefsWf] at h ⊢; exact ⟨h1 h.1, h4 h.2⟩
    · rw [defsLiterals, defsLiterals, h2, h5]; simp
    · have h6 := h6 level
      rw [mapDefs] at h6 ⊢
      rw [printDefs_cons, printDefs_cons, h3, h6]
end

/-- Replace the literals of a schema. -/
def mapSchema (f : Literal → Literal) (s : Schema) : Schema := { s with definitions := mapDefs f s.definitions }

theorem mapTop_print (std : Std) (f : Literal → Literal) (hf : ∀ l, printLiteral std (f l) = printLiteral std l) :
    ∀ ds : List Definition, printTop std (mapDefs f ds) = printTop std ds
  | [] => by rw [mapDefs]
  | d :: ds => by rw [mapDefs, printTop, printTop, (mapDef_facts std f hf d).2.2, mapTop_print std f hf ds]

theorem mapSchema_facts (std : Std) (f : Literal → Literal) (hf : ∀ l, printLiteral std (f l) = printLiteral std l)
    (s : Schema) : (SchemaWf s → SchemaWf (mapSchema f s)) ∧
      schemaLiterals (mapSchema f s) = (schemaLiterals s).map f ∧ printSchema std (mapSchema f s) = printSchema std s := by
  obtain ⟨h1, h2, _⟩ := mapDefs_facts std f hf s.definitions
  refine ⟨fun h => ⟨h.1, h1 h.2⟩, h2, ?_⟩
  unfold printSchema
  rw [show (mapSchema f s).definitions = mapDefs f s.definitions from rfl, mapTop_print std f hf]
  rfl

end Mabo.Parse
