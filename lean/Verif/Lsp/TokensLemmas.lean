import Verif.Lsp.TokensCover
/-! The calls of the visitor cover the wanted items, for every parser. -/
namespace Mabo.Lsp
open Mabo.Parse Mabo.Spanned Mabo.Spec
open Mabo.Schema (Prim)

/-- A type and modifiers that the legend knows. -/
abbrev Good (ty : String) (ms : List String) : Prop :=
  ty ∈ tokenTypes ∧ ms ∈ [[], ["declaration"], ["documentation"], ["declaration", "static", "constant"]]

/-- The calls lie one after the other between the inputs `s` and `r`, and are about the items. -/
inductive Cover : Text → Text → List Call → List Item → Prop
  | nil {s r : Text} : r <:+ s → Cover s r [] []
  | cons {s r v : Text} {c : Call} {i : Item} {cs : List Call} {is : List Item} : (v ++ c.span.stop) <:+ s →
      c.span.start = v ++ c.span.stop → v ≠ [] → '\n' ∉ v → i.text v → c.type = i.type → c.modifiers = i.modifiers →
      Good i.type i.modifiers →
      Cover c.span.stop r cs is → Cover s r (c :: cs) (i :: is)

theorem Cover.pre {s s' r : Text} {cs : List Call} {is : List Item} (h : Cover s r cs is) (hs : s <:+ s') : Cover s' r cs is := by
  cases h with
  | nil h => exact .nil (h.trans hs)
  | cons h1 h2 h3 h4 h5 h6 h7 h8 h9 => exact .cons (h1.trans hs) h2 h3 h4 h5 h6 h7 h8 h9

theorem Cover.post {s r r' : Text} {cs : List Call} {is : List Item} (h : Cover s r cs is) (hr : r' <:+ r) : Cover s r' cs is := by
  induction h with
  | nil h => exact .nil (hr.trans h)
  | cons h1 h2 h3 h4 h5 h6 h7 hg _ ih => exact .cons h1 h2 h3 h4 h5 h6 h7 hg (ih hr)

theorem Cover.append {s m r : Text} {cs cs' : List Call} {is is' : List Item} (h : Cover s m cs is)
    (h' : Cover m r cs' is') : Cover s r (cs ++ cs') (is ++ is') := by
  induction h with
  | nil h => exact h'.pre h
  | cons h1 h2 h3 h4 h5 h6 h7 hg _ ih => exact .cons h1 h2 h3 h4 h5 h6 h7 hg (ih h')

theorem Cover.suffix {s r : Text} {cs : List Call} {is : List Item} (h : Cover s r cs is) : r <:+ s := by
  induction h with
  | nil h => exact h
  | cons h1 _ _ _ _ _ _ _ _ ih => exact ih.trans ((List.suffix_append _ _).trans h1)

theorem Cover.one {v r : Text} {ty : String} {ms : List String} {text : Text → Prop} (hv : v ≠ []) (hn : '\n' ∉ v)
    (ht : text v) (hg : Good ty ms := by decide) : Cover (v ++ r) r [⟨⟨v ++ r, r⟩, ty, ms⟩] [⟨ty, ms, text⟩] :=
  .cons List.suffix_rfl rfl hv hn ht rfl rfl hg (.nil List.suffix_rfl)

/-- The calls and items of the results of a parser. -/
def Cov {α : Type} (p : P α) (calls : α → List Call) (items : α → List Item) : Prop :=
  ∀ {s a r}, p s = .ok a r → Cover s r (calls a) (items a)

variable {α : Type} {p : P α} {calls : α → List Call} {items : α → List Item}

theorem cov_suf (h : Suf p) : Cov p (fun _ => []) (fun _ => []) := fun e => .nil (h e)

theorem cov_sp (h : Cov p calls items) : Cov (sp p) calls items := fun e => by
  rw [sp_run] at e; exact (h e).pre (List.dropWhile_suffix _)

theorem cov_ws (h : Cov p calls items) : Cov (ws p) calls items := fun e => by
  rw [ws_run] at e; exact (h e).pre (List.dropWhile_suffix _)

theorem cov_cutErr (h : Cov p calls items) : Cov (cutErr p) calls items := fun e => h (cutErr_ok.1 e)

theorem cov_alt {q : P α} (h : Cov p calls items) (h' : Cov q calls items) : Cov (alt p q) calls items := fun e => by
  rcases alt_eq_ok e with e | ⟨_, e⟩
  · exact h e
  · exact h' e

theorem cov_opt (h : Cov p calls items) : Cov (opt p) (fun o => o.elim [] calls) (fun o => o.elim [] items) := fun e => by
  rcases opt_eq_ok e with ⟨a, rfl, e'⟩ | ⟨rfl, rfl, _⟩
  · exact h e'
  · exact .nil List.suffix_rfl

theorem cov_many (h : Cov p calls items) : Cov (many p) (fun as => as.flatMap calls) (fun as => as.flatMap items) := by
  have : ∀ n {s as r}, manyAux p n s = .ok as r → Cover s r (as.flatMap calls) (as.flatMap items) := by
    intro n
    induction n with
    | zero => intro s as r h; cases h
    | succ n ih =>
      intro s as r e
      rcases manyAux_eq_ok e with ⟨rfl, rfl, _⟩ | ⟨a, as', m, rfl, h1, h2⟩
      · exact .nil List.suffix_rfl
      · rw [List.flatMap_cons, List.flatMap_cons]
        exact (h h1).append (ih h2)
  intro s a r h; exact this _ h

theorem cov_many1 (h : Cov p calls items) : Cov (many1 p) (fun as => as.flatMap calls) (fun as => as.flatMap items) := by
  intro s as r e
  obtain ⟨a, m, h1, e⟩ := bind_eq_ok e
  obtain ⟨as', m', h2, e⟩ := bind_eq_ok e
  obtain ⟨rfl, rfl⟩ := pure_eq_ok e
  simp only [List.flatMap_cons]
  exact (h h1).append (cov_many h h2)

theorem cov_separated1 {β : Type} {q : P β} (h : Cov p calls items) (hq : Suf q) :
    Cov (separated1 p q) (fun as => as.flatMap calls) (fun as => as.flatMap items) := by
  intro s as r e
  obtain ⟨a, m, h1, e⟩ := bind_eq_ok e
  obtain ⟨as', m', h2, e⟩ := bind_eq_ok e
  obtain ⟨rfl, rfl⟩ := pure_eq_ok e
  simp only [List.flatMap_cons]
  refine (h h1).append (cov_many (p := do let _ ← q; p) (fun e => ?_) h2)
  obtain ⟨_, m, h1, e⟩ := bind_eq_ok e
  exact (h e).pre (hq h1)

/-! ### Tokens -/

theorem withSpan_eq_ok {s r : Text} {x : α × Span} (h : withSpan p s = .ok x r) : p s = .ok x.1 r ∧ x.2 = ⟨s, r⟩ := by
  unfold withSpan at h
  cases e : p s with
  | ok a r' => rw [e] at h; injection h with h1 h2; subst h1 h2; exact ⟨rfl, rfl⟩
  | back => rw [e] at h; cases h
  | cut => rw [e] at h; cases h

theorem span_eq_ok {s r : Text} {x : Span} (h : span p s = .ok x r) : (∃ a, p s = .ok a r) ∧ x = ⟨s, r⟩ := by
  obtain ⟨y, m, h1, h⟩ := bind_eq_ok h
  obtain ⟨rfl, rfl⟩ := pure_eq_ok h
  exact ⟨⟨_, (withSpan_eq_ok h1).1⟩, (withSpan_eq_ok h1).2⟩

theorem named_eq_ok {p : P String} {s r : Text} {n : Name} (h : named p s = .ok n r) : p s = .ok n.value r ∧ n.span = ⟨s, r⟩ := by
  obtain ⟨y, m, h1, h⟩ := bind_eq_ok h
  obtain ⟨rfl, rfl⟩ := pure_eq_ok h
  exact withSpan_eq_ok h1

theorem suf_span (h : Suf p) : Suf (span p) := fun e => (span_eq_ok e).1.elim fun _ e => h e

theorem cov_lit (ty : String) (w : String) (ms : List String) (hw : w.toList ≠ []) (hn : '\n' ∉ w.toList)
    (hg : Good ty ms) :
    Cov (span (lit w)) (fun x => [⟨x, ty, ms⟩]) (fun _ => [word ty w ms]) := fun e => by
  obtain ⟨⟨_, e'⟩, rfl⟩ := span_eq_ok e
  rw [lit_eq_ok e']
  exact .one hw hn rfl hg

theorem cov_chr (ty : String) (w : String) (c : Char) (hw : w.toList = [c]) (hn : '\n' ≠ c)
    (hg : Good ty []) :
    Cov (span (chr c)) (fun x => [⟨x, ty, []⟩]) (fun _ => [word ty w]) := fun e => by
  obtain ⟨⟨_, e'⟩, rfl⟩ := span_eq_ok e
  rw [chr_eq_ok e']
  exact .one (v := [c]) (by simp) (by simpa using hn) hw.symm hg

theorem cov_name (ty : String) (ms : List String) {hd tl : Char → Bool} (h1 : hd '\n' = false) (h2 : tl '\n' = false)
    (hg : Good ty ms) :
    Cov (named (Parse.name hd tl)) (fun n => [⟨n.span, ty, ms⟩]) (fun n => [word ty n.value ms]) := fun {s n r} e => by
  obtain ⟨e', hs⟩ := named_eq_ok e
  clear e
  obtain ⟨rfl, ⟨c, cs, h3, h4, h5⟩, _⟩ := name_eq_ok e'
  simp only [hs]
  refine .one ?_ ?_ rfl hg
  · rw [h3]; simp
  · rw [h3]
    intro hm
    rcases List.mem_cons.1 hm with rfl | hm
    · rw [h1] at h4; cases h4
    · rw [h5 _ hm] at h2; cases h2

/-! ### Lists -/

/-- Values with their separators, one after the other. -/
inductive Chain (f : P (α × Span)) : Text → List (α × Span) → Text → Prop
  | nil (s : Text) : Chain f s [] s
  | snoc {s m r : Text} {xs : List (α × Span)} {x : α × Span} : Chain f s xs m → f m = .ok x r → Chain f s (xs ++ [x]) r

theorem punctuateAux_chain {f : P (α × Span)} {g : P (α × Option Span)} {s0 : Text} : ∀ {n acc prev s d r},
    punctuateAux f g n acc prev s = .ok d r → Chain f s0 acc.reverse s →
    (∀ s' acc', prev = some (s', acc') → Chain f s0 acc'.reverse s') →
    ∃ xs m a t, Chain f s0 xs m ∧ g m = .ok (a, t) r ∧ d = ⟨xs.map (·.1) ++ [a], xs.map (·.2), t⟩
  | 0, _, _, _, _, _, h, _, _ => by cases h
  | n + 1, acc, prev, s, d, r, h, hc, hp => by
    rw [punctuateAux_eq] at h
    cases hf : f s with
    | cut => rw [hf] at h; cases h
    | ok a r' =>
      rw [hf] at h
      simp only at h
      by_cases hl : r'.length = s.length
      · rw [if_pos hl] at h; cases h
      · rw [if_neg hl] at h
        refine punctuateAux_chain h ?_ ?_
        · rw [List.reverse_cons]; exact .snoc hc hf
        · intro s' acc' e; cases e; exact hc
    | back =>
      rw [hf] at h
      simp only at h
      cases hg : g s with
      | cut => rw [hg] at h; cases h
      | ok y r' =>
        rw [hg] at h
        injection h with h1 h2
        subst h2
        refine ⟨acc.reverse, s, y.1, y.2, hc, hg, ?_⟩
        rw [← h1]; simp
      | back =>
        rw [hg] at h
        simp only at h
        cases prev with
        | none => cases h
        | some x =>
          obtain ⟨s', acc'⟩ := x
          simp only at h
          cases hg' : g s' with
          | cut => rw [hg'] at h; cases h
          | back => rw [hg'] at h; cases h
          | ok y r' =>
            rw [hg'] at h
            injection h with h1 h2
            subst h2
            refine ⟨acc'.reverse, s', y.1, y.2, hp _ _ rfl, hg', ?_⟩
            rw [← h1]; simp

/-- The calls of values that are followed by a comma. -/
def commaCalls (calls : α → List Call) (xs : List (α × Span)) : List Call :=
  xs.flatMap fun x => calls x.1 ++ [⟨x.2, "comma", []⟩]

theorem visitList_snoc (calls : α → List Call) : ∀ (xs : List (α × Span)) (a : α) (t : Option Span),
    visitList calls (xs.map (·.1) ++ [a]) (xs.map (·.2)) t =
      commaCalls calls xs ++ (calls a ++ (match t with | some c => [⟨c, "comma", []⟩] | none => []))
  | [], a, t => rfl
  | x :: xs, a, t => by
    have e : visitList calls ((x :: xs).map (·.1) ++ [a]) ((x :: xs).map (·.2)) t =
        calls x.1 ++ ⟨x.2, "comma", []⟩ :: visitList calls (xs.map (·.1) ++ [a]) (xs.map (·.2)) t := by
      cases xs <;> rfl
    rw [e, visitList_snoc calls xs]
    simp [commaCalls]

theorem separatedItems_snoc : ∀ (xs : List (List Item)) (a : List Item) (t : Bool), separatedItems (xs ++ [a]) t =
    xs.flatMap (fun x => x ++ [word "comma" ","]) ++ (a ++ (if t then [word "comma" ","] else []))
  | [], a, t => rfl
  | x :: xs, a, t => by
    have e : separatedItems (x :: xs ++ [a]) t = x ++ word "comma" "," :: separatedItems (xs ++ [a]) t := by
      cases xs <;> rfl
    rw [e, separatedItems_snoc xs]
    simp

theorem cov_comma : Cov (ws (span (chr ','))) (fun x => [⟨x, "comma", []⟩]) (fun _ => [word "comma" ","]) :=
  cov_ws (cov_chr "comma" "," ',' rfl (by decide) (by decide))

theorem chain_cover {f : P (α × Span)} (hf : Cov f (fun x => calls x.1 ++ [⟨x.2, "comma", []⟩])
    (fun x => items x.1 ++ [word "comma" ","])) {s m : Text} {xs : List (α × Span)} (h : Chain f s xs m) :
    Cover s m (commaCalls calls xs) ((xs.map fun x => items x.1).flatMap fun x => x ++ [word "comma" ","]) := by
  induction h with
  | nil => exact .nil List.suffix_rfl
  | snoc _ h ih =>
    have := ih.append (hf h)
    simpa [commaCalls] using this

theorem cov_commaList (h : Cov p calls items) : Cov (Spanned.commaList p) (fun d => visitList calls d.values d.commas d.last)
    (fun d => separatedItems (d.values.map items) d.last.isSome) := by
  intro s d r e
  obtain ⟨xs, m, a, t, h1, h2, rfl⟩ := punctuateAux_chain e (.nil s) (fun _ _ e => by cases e)
  have hf : Cov (do let a ← p; let c ← ws (span (chr ',')); pure (a, c)) (fun x => calls x.1 ++ [⟨x.2, "comma", []⟩])
      (fun x => items x.1 ++ [word "comma" ","]) := by
    intro s x r e
    obtain ⟨a, m, h1, e⟩ := bind_eq_ok e
    obtain ⟨c, m', h2, e⟩ := bind_eq_ok e
    obtain ⟨rfl, rfl⟩ := pure_eq_ok e
    exact (h h1).append (cov_comma h2)
  have c1 := chain_cover hf h1
  obtain ⟨a', m1, h3, e⟩ := bind_eq_ok h2
  obtain ⟨o, m2, h4, e⟩ := bind_eq_ok e
  obtain ⟨e5, rfl⟩ := pure_eq_ok e
  cases e5
  simp only [List.map_append, List.map_cons, List.map_nil]
  rw [visitList_snoc, separatedItems_snoc, List.map_map]
  refine c1.append ((h h3).append ?_)
  have := cov_opt cov_comma h4
  cases t with
  | none => exact this
  | some c => exact this

theorem cov_surround {ty os cs : String} {o c : Char} (h : Cov p calls items) (ho : os.toList = [o]) (hc : cs.toList = [c])
    (ho' : '\n' ≠ o) (hc' : '\n' ≠ c) (hg : Good ty []) :
    Cov (Spanned.surround o c p) (fun d => [⟨d.opening, ty, []⟩] ++ calls d.inner ++ [⟨d.closing, ty, []⟩])
      (fun d => delimitedItems ty os cs (items d.inner)) := by
  intro s d r e
  obtain ⟨x, m, h1, e⟩ := bind_eq_ok e
  obtain ⟨a, m1, h2, e⟩ := bind_eq_ok (cutErr_ok.1 e)
  obtain ⟨y, m2, h3, e⟩ := bind_eq_ok e
  obtain ⟨rfl, rfl⟩ := pure_eq_ok e
  have := ((cov_chr ty os o ho ho' hg h1).append (h h2)).append (cov_ws (cov_chr ty cs c hc hc' hg) h3)
  simpa [delimitedItems] using this

/-! ### Types -/

theorem visitTypes_eq : ∀ (ts : List Ty) (cs : List Span) (l : Option Span), visitTypes ts cs l = visitList visitType ts cs l
  | [], _, _ => by simp only [visitTypes, visitList]
  | [t], _, l => by cases l <;> simp only [visitTypes, visitList]
  | t :: t' :: ts, c :: cs, l => by
    rw [visitTypes, visitList, visitTypes_eq (t' :: ts) cs l] <;> simp
  | t :: t' :: ts, [], l => by
    rw [visitTypes, visitList, visitTypes_eq (t' :: ts) [] l] <;> simp

theorem typesItems_eq : ∀ ts : List Ast.DataType, typesItems ts = ts.map Spec.typeItems
  | [] => by simp only [typesItems, List.map]
  | t :: ts => by simp only [typesItems, typesItems_eq ts, List.map]

theorem typesItems_erase (ts : List Ty) : typesItems (ts.map Ty.erase) = ts.map fun t => Spec.typeItems t.erase := by
  rw [typesItems_eq, List.map_map]; rfl

theorem ite_some_inv {c : Prop} [Decidable c] {β : Type} {a p : β} {o : Option β} (h : (if c then some a else o) = some p) :
    (c ∧ a = p) ∨ o = some p := by
  by_cases hc : c
  · rw [if_pos hc] at h; injection h with h; exact .inl ⟨hc, h⟩
  · rw [if_neg hc] at h; exact .inr h

theorem basicOf_spelling {w : String} {p : Prim} (h : basicOf w = some p) : w = spelling p := by
  unfold basicOf at h
  iterate 17
    rcases ite_some_inv h with ⟨e, rfl⟩ | h
    · exact e
  cases h

theorem cov_parseBasic : Cov Spanned.parseBasic visitType (fun t => Spec.typeItems t.erase) := by
  intro s t r e
  obtain ⟨⟨p, sp1⟩, m, h1, e⟩ := bind_eq_ok e
  obtain ⟨rfl, rfl⟩ := pure_eq_ok e
  obtain ⟨h2, h3⟩ := withSpan_eq_ok h1
  simp only at h2 h3
  subst h3
  simp only [visitType, Ty.erase, Spec.typeItems]
  rcases alt_eq_ok h2 with h4 | ⟨_, h4⟩
  · obtain ⟨w, m', h5, h6⟩ := bind_eq_ok h4
    obtain ⟨rfl, hw, _, hl⟩ := takeWhile_eq_ok h5
    cases hb : basicOf (String.ofList w) with
    | none => rw [hb] at h6; cases h6
    | some q =>
      rw [hb] at h6
      obtain ⟨rfl, rfl⟩ := pure_eq_ok h6
      have e' := basicOf_spelling hb
      refine .one (by intro hh; rw [hh] at hl; simp at hl) ?_ ?_
      · intro hn; exact absurd (hw _ hn) (by decide)
      · rw [← e', String.toList_ofList]
  · rcases alt_eq_ok h4 with h5 | ⟨_, h5⟩
    · obtain ⟨_, m', h6, h7⟩ := bind_eq_ok h5
      obtain ⟨rfl, rfl⟩ := pure_eq_ok h7
      rw [lit_eq_ok h6]
      exact .one (by decide) (by decide) rfl
    · obtain ⟨_, m', h6, h7⟩ := bind_eq_ok h5
      obtain ⟨rfl, rfl⟩ := pure_eq_ok h7
      rw [lit_eq_ok h6]
      exact .one (by decide) (by decide) rfl

theorem cov_angles (h : Cov p calls items) :
    Cov (Spanned.surround '<' '>' p) (fun d => [⟨d.opening, "angle", []⟩] ++ calls d.inner ++ [⟨d.closing, "angle", []⟩])
      (fun d => delimitedItems "angle" "<" ">" (items d.inner)) := cov_surround h rfl rfl (by decide) (by decide) (by decide)

theorem cov_parens (h : Cov p calls items) :
    Cov (Spanned.surround '(' ')' p) (fun d => [⟨d.opening, "parenthesis", []⟩] ++ calls d.inner ++ [⟨d.closing, "parenthesis", []⟩])
      (fun d => delimitedItems "parenthesis" "(" ")" (items d.inner)) := cov_surround h rfl rfl (by decide) (by decide) (by decide)

theorem cov_braces (h : Cov p calls items) :
    Cov (Spanned.surround '{' '}' p) (fun d => [⟨d.opening, "brace", []⟩] ++ calls d.inner ++ [⟨d.closing, "brace", []⟩])
      (fun d => delimitedItems "brace" "{" "}" (items d.inner)) := cov_surround h rfl rfl (by decide) (by decide) (by decide)

theorem cov_brackets (h : Cov p calls items) :
    Cov (Spanned.surround '[' ']' p) (fun d => [⟨d.opening, "bracket", []⟩] ++ calls d.inner ++ [⟨d.closing, "bracket", []⟩])
      (fun d => delimitedItems "bracket" "[" "]" (items d.inner)) := cov_surround h rfl rfl (by decide) (by decide) (by decide)

/-- The word of a type with one type argument. -/
def Single.word : Single → String
  | .vec => "vec"
  | .hashSet => "hash_set"
  | .option => "option"
  | .nonZero => "non_zero"

theorem typeItems_single (k : Single) (t : Ast.DataType) : Spec.typeItems (k.erase t) =
    Spec.word "builtinType" (Single.word k) :: delimitedItems "angle" "<" ">" (Spec.typeItems t) := by
  cases k <;> (simp only [Single.erase]; rw [Spec.typeItems]; rfl)

theorem cov_parseSingle {rec : P Ty} (hr : Cov rec visitType fun t => Spec.typeItems t.erase) (k : Single) {s r m : Text} {t : Ty}
    (h : Spanned.parseSingle rec k ⟨s, m⟩ m = .ok t r) (hs : s = (Single.word k).toList ++ m) :
    Cover s r (visitType t) (Spec.typeItems t.erase) := by
  obtain ⟨d, m1, h1, h2⟩ := bind_eq_ok h
  obtain ⟨rfl, rfl⟩ := pure_eq_ok h2
  simp only [visitType, Ty.erase, typeItems_single]
  have c1 : Cover s m [⟨⟨s, m⟩, "builtinType", []⟩] [Spec.word "builtinType" (Single.word k)] := by
    rw [hs]; exact .one (by cases k <;> decide) (by cases k <;> decide) rfl
  have := c1.append (cov_angles hr (cutErr_ok.1 h1))
  simpa using this

theorem cov_parsePair {rec : P Ty} (hr : Cov rec visitType fun t => Spec.typeItems t.erase) {s r m : Text} {t : Ty}
    (h : Spanned.parsePair rec ⟨s, m⟩ m = .ok t r) (hs : s = "hash_map".toList ++ m) :
    Cover s r (visitType t) (Spec.typeItems t.erase) := by
  obtain ⟨d, m1, h1, h2⟩ := bind_eq_ok h
  obtain ⟨rfl, rfl⟩ := pure_eq_ok h2
  simp only [visitType, Ty.erase, Spec.typeItems]
  have c1 : Cover s m [⟨⟨s, m⟩, "builtinType", []⟩] [Spec.word "builtinType" "hash_map"] := by
    rw [hs]; exact .one (by decide) (by decide) rfl
  have c2 : Cov (do let k ← rec; let c ← sp (span (chr ',')); let v ← sp rec; pure (k, c, v))
      (fun x : Ty × Span × Ty => visitType x.1 ++ [⟨x.2.1, "comma", []⟩] ++ visitType x.2.2)
      (fun x => Spec.typeItems x.1.erase ++ Spec.word "comma" "," :: Spec.typeItems x.2.2.erase) := by
    intro s x r e
    obtain ⟨k, m1, h1, e⟩ := bind_eq_ok e
    obtain ⟨c, m2, h2, e⟩ := bind_eq_ok e
    obtain ⟨v, m3, h3, e⟩ := bind_eq_ok e
    obtain ⟨rfl, rfl⟩ := pure_eq_ok e
    have := ((hr h1).append (cov_sp (cov_chr "comma" "," ',' rfl (by decide) (by decide)) h2)).append (cov_sp hr h3)
    simpa using this
  have := c1.append (cov_angles c2 (cutErr_ok.1 h1))
  simpa using this

theorem cov_parseGeneric {rec : P Ty} (hr : Cov rec visitType fun t => Spec.typeItems t.erase) :
    Cov (Spanned.parseGeneric rec) visitType (fun t => Spec.typeItems t.erase) := by
  intro s t r e
  obtain ⟨⟨w, sp1⟩, m, h1, e⟩ := bind_eq_ok e
  obtain ⟨h2, h3⟩ := withSpan_eq_ok h1
  simp only at h2 h3
  subst h3
  have h4 := (takeWhile_eq_ok h2).1
  have key : ∀ x : String, String.ofList w = x → s = x.toList ++ m := by
    rintro x rfl; rw [String.toList_ofList]; exact h4
  simp only at e
  split at e
  · exact cov_parseSingle hr .vec e (key _ (by assumption))
  split at e
  · exact cov_parsePair hr e (key _ (by assumption))
  split at e
  · exact cov_parseSingle hr .hashSet e (key _ (by assumption))
  split at e
  · exact cov_parseSingle hr .option e (key _ (by assumption))
  split at e
  · exact cov_parseSingle hr .nonZero e (key _ (by assumption))
  · cases e

theorem cov_parseTuple {rec : P Ty} (hr : Cov rec visitType fun t => Spec.typeItems t.erase) :
    Cov (Spanned.parseTuple rec) visitType (fun t => Spec.typeItems t.erase) := by
  intro s t r e
  obtain ⟨d, m, h1, e⟩ := bind_eq_ok e
  obtain ⟨rfl, rfl⟩ := pure_eq_ok e
  have := cov_parens (cov_commaList (cov_ws hr)) h1
  simp only [visitType, Ty.erase, Spec.typeItems, visitTypes_eq, typesItems_erase]
  exact this

theorem cov_parseArray {rec : P Ty} (hr : Cov rec visitType fun t => Spec.typeItems t.erase) :
    Cov (Spanned.parseArray rec) visitType (fun t => Spec.typeItems t.erase) := by
  intro s t r e
  obtain ⟨d, m, h1, e⟩ := bind_eq_ok e
  obtain ⟨rfl, rfl⟩ := pure_eq_ok e
  have c2 : Cov (do let t ← ws rec; let c ← ws (span (chr ';')); let n ← ws (decUint (2 ^ 32)); pure (t, c, n))
      (fun x : Ty × Span × Nat => visitType x.1 ++ [⟨x.2.1, "semicolon", []⟩])
      (fun x => Spec.typeItems x.1.erase ++ [Spec.word "semicolon" ";"]) := by
    intro s x r e
    obtain ⟨k, m1, h1, e⟩ := bind_eq_ok e
    obtain ⟨c, m2, h2, e⟩ := bind_eq_ok e
    obtain ⟨v, m3, h3, e⟩ := bind_eq_ok e
    obtain ⟨rfl, rfl⟩ := pure_eq_ok e
    exact ((cov_ws hr h1).append (cov_ws (cov_chr "semicolon" ";" ';' rfl (by decide) (by decide)) h2)).post
      (suf_ws (suf_decUint _) h3)
  have := cov_brackets c2 h1
  simp only [visitType, Ty.erase, Spec.typeItems]
  simpa using this

theorem commaList_values {s r : Text} {d : Punctuated α} (h : Spanned.commaList p s = .ok d r) : d.values ≠ [] := by
  obtain ⟨xs, m, a, t, h1, h2, rfl⟩ := punctuateAux_chain h (.nil s) (fun _ _ e => by cases e)
  simp

theorem surround_inner {o c : Char} {s r : Text} {d : Delimited α} (h : Spanned.surround o c p s = .ok d r) :
    ∃ m m', p m = .ok d.inner m' := by
  obtain ⟨x, m, h1, e⟩ := bind_eq_ok h
  obtain ⟨a, m1, h2, e⟩ := bind_eq_ok (cutErr_ok.1 e)
  obtain ⟨y, m2, h3, e⟩ := bind_eq_ok e
  obtain ⟨rfl, rfl⟩ := pure_eq_ok e
  exact ⟨_, _, h2⟩

theorem cov_parseExternal {rec : P Ty} (hr : Cov rec visitType fun t => Spec.typeItems t.erase) :
    Cov (Spanned.parseExternal rec) visitType (fun t => Spec.typeItems t.erase) := by
  intro s t r e
  obtain ⟨path, m1, h1, e⟩ := bind_eq_ok e
  obtain ⟨name, m2, h2, e⟩ := bind_eq_ok e
  obtain ⟨g, m3, h3, e2⟩ := bind_eq_ok e
  have c0 : Cov (do let s ← named parseSegment; let c ← span (lit "::"); pure (s, c))
      (fun x : Name × Span => [⟨x.1.span, "namespace", []⟩, ⟨x.2, "doubleColon", []⟩])
      (fun x => [Spec.word "namespace" x.1.value, Spec.word "doubleColon" "::"]) := by
    intro s x r e
    obtain ⟨a, m1, h1, e⟩ := bind_eq_ok e
    obtain ⟨c, m2, h2, e⟩ := bind_eq_ok e
    obtain ⟨rfl, rfl⟩ := pure_eq_ok e
    exact (cov_name "namespace" [] (by decide) (by decide) (by decide) h1).append
      (cov_lit "doubleColon" "::" [] (by decide) (by decide) (by decide) h2)
  have c1 : Cover s m1 (visitPath (path.getD [])) ((path.getD []).flatMap fun x =>
      [Spec.word "namespace" x.1.value, Spec.word "doubleColon" "::"]) := by
    have := cov_opt (cov_many1 c0) h1
    cases path with
    | none => exact this
    | some path => exact this
  have c2 := cov_name "type" [] (by decide) (by decide) (by decide) h2
  rcases opt_eq_ok h3 with ⟨d, rfl, h4⟩ | ⟨rfl, rfl, _⟩
  · obtain ⟨rfl, rfl⟩ := pure_eq_ok e2
    have c3 := cov_angles (cov_commaList (cov_ws hr)) h4
    obtain ⟨_, _, h5⟩ := surround_inner h4
    have hv := commaList_values h5
    simp only [visitType, Ty.erase, Spec.typeItems, visitTypes_eq, typesItems_erase, List.flatMap_map]
    rw [if_neg (by simpa using hv)]
    have := (c1.append c2).append c3
    simpa using this
  · obtain ⟨rfl, rfl⟩ := pure_eq_ok e2
    simp only [visitType, Ty.erase, Spec.typeItems, visitTypes_eq, List.flatMap_map, List.map_nil, List.isEmpty_nil, if_true]
    have := c1.append c2
    simpa [visitList] using this

theorem cov_typeDepth : ∀ n, Cov (Spanned.typeDepth n) visitType (fun t => Spec.typeItems t.erase)
  | 0 => fun h => by cases h
  | n + 1 => cov_alt cov_parseBasic <| cov_alt (cov_parseGeneric (cov_typeDepth n)) <|
      cov_alt (cov_parseTuple (cov_typeDepth n)) <| cov_alt (cov_parseArray (cov_typeDepth n))
        (cov_parseExternal (cov_typeDepth n))

theorem cov_parseType : Cov Spanned.parseType visitType (fun t => Spec.typeItems t.erase) := fun h => cov_typeDepth _ h

end Mabo.Lsp
