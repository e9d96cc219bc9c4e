import Verif.Doc.Pages
/-! Where the links of the pages lead. -/
namespace Mabo.Doc
open Mabo.Simplify Mabo.Spec
open Mabo.Parse (Text Std)

/-! ### Relative links -/

theorem cut_none {w : Text} (h : '/' ∉ w) : cutSlashes w = [w] := by
  induction w with
  | nil => rfl
  | cons c cs ih =>
    have hc : c ≠ '/' := fun e => h (e ▸ List.mem_cons_self ..)
    have := ih fun hm => h (List.mem_cons_of_mem _ hm)
    rw [cutSlashes, if_neg hc, this]

theorem cut_one {w r : Text} (h : '/' ∉ w) : cutSlashes (w ++ '/' :: r) = w :: cutSlashes r := by
  induction w with
  | nil => rw [List.nil_append, cutSlashes, if_pos rfl]
  | cons c cs ih =>
    have hc : c ≠ '/' := fun e => h (e ▸ List.mem_cons_self ..)
    have := ih fun hm => h (List.mem_cons_of_mem _ hm)
    rw [List.cons_append, cutSlashes, if_neg hc, this]

theorem cut_up (n : Nat) (r : Text) : cutSlashes (upwards n ++ r) = List.replicate n "..".toList ++ cutSlashes r := by
  induction n with
  | zero => rfl
  | succ n ih =>
    have : upwards (n + 1) ++ r = "..".toList ++ '/' :: (upwards n ++ r) := rfl
    rw [this, cut_one (by decide), ih, List.replicate_succ, List.cons_append]

theorem follow_append (dir ws vs : List Text) : follow dir (ws ++ vs) = follow (follow dir ws) vs := by
  induction ws generalizing dir with
  | nil => rfl
  | cons w ws ih => rw [List.cons_append, follow, follow, ih]

theorem follow_up (n : Nat) (dir : List Text) : follow dir (List.replicate n "..".toList) = dir.take (dir.length - n) := by
  induction n generalizing dir with
  | zero => simp [follow]
  | succ n ih =>
    rw [List.replicate_succ, follow, if_pos rfl, ih, List.dropLast_eq_take, List.take_take]
    congr 1
    simp only [List.length_take]
    omega

theorem follow_one {dir : List Text} {w : Text} (h : w ≠ "..".toList) : follow dir [w] = dir ++ [w] := by
  rw [follow, if_neg h, follow]

theorem follow_two {dir : List Text} {v w : Text} (h : v ≠ "..".toList) (h' : w ≠ "..".toList) :
    follow dir [v, w] = dir ++ [v, w] := by
  rw [follow, if_neg h, follow_one h']; simp

/-- A link up a number of directories. -/
theorem target_up (page : List Text) (n : Nat) {w : Text} (hw : '/' ∉ w) (hd : w ≠ "..".toList) :
    target page (upwards n ++ w) = page.dropLast.take (page.dropLast.length - n) ++ [w] := by
  rw [target, cut_up, cut_none hw, follow_append, follow_up, follow_one hd]

/-! ### Headings -/

theorem trail_length (len : Nat) : ∀ (ps : List String) (i : Nat), (trailFrom len i ps).map Link.label = ps
  | [], _ => rfl
  | p :: ps, i => by rw [trailFrom, List.map_cons, trail_length len ps]

theorem trail_get (len : Nat) : ∀ (ps : List String) (i k : Nat) (l : Link), (trailFrom len i ps)[k]? = some l →
    l.href = upwards (len - (i + k) - 1) ++ "index.html".toList
  | [], _, _, _, h => by simp [trailFrom] at h
  | p :: ps, i, 0, l, h => by
    simp only [trailFrom, List.getElem?_cons_zero, Option.some.injEq] at h
    subst h; rfl
  | p :: ps, i, k + 1, l, h => by
    simp only [trailFrom, List.getElem?_cons_succ] at h
    have := trail_get len ps (i + 1) k l h
    rw [this, show i + 1 + k = i + (k + 1) by omega]

theorem docDir_length (out : List Text) (stem : String) (mods : List String) :
    (docDir out stem mods).length = out.length + 2 + mods.length := by
  simp [docDir]; omega

theorem docDir_take (out : List Text) (stem : String) (mods : List String) (n : Nat) :
    (docDir out stem mods).take (out.length + 2 + n) = docDir out stem (mods.take n) := by
  unfold docDir
  have : out.length + 2 + n = (out ++ [stem.toList, stem.toList]).length + n := by simp
  rw [this, List.take_length_add_append, List.map_take]

/-- The heading of a page in the directory of `full` whose heading names the first `k` of its modules. -/
theorem trail_target {out : List Text} {stem : String} {full : List String} {p : List Text} {k i : Nat} {l : Link}
    (hp : p.dropLast = docDir out stem full)
    (h : (trailFrom (full.length + 1) 0 ((stem :: full).take k))[i]? = some l) :
    target p l.href = docDir out stem (full.take i) ++ ["index.html".toList] := by
  have hl : i < ((stem :: full).take k).length := by
    have h2 := (List.getElem?_eq_some_iff.1 h).1
    have h3 := congrArg List.length (trail_length (full.length + 1) ((stem :: full).take k) 0)
    rw [List.length_map] at h3
    omega
  have hi : i ≤ full.length := by
    simp only [List.length_take, List.length_cons] at hl
    omega
  rw [trail_get _ _ _ _ _ h, target_up _ _ (by decide) (by decide), hp, docDir_length]
  have : out.length + 2 + full.length - (full.length + 1 - (0 + i) - 1) = out.length + 2 + i := by omega
  rw [this, docDir_take]

/-- The style sheet of a page in the directory of `full`. -/
theorem stylesheet_target {out : List Text} {stem : String} {full : List String} {p : List Text}
    (hp : p.dropLast = docDir out stem full) :
    target p (stylesheet (stem :: full)) = out ++ [stem.toList, "assets".toList, "style.css".toList] := by
  unfold stylesheet target
  rw [cut_up]
  have : cutSlashes "assets/style.css".toList = ["assets".toList, "style.css".toList] := by decide
  rw [this, follow_append, follow_up, follow_two (by decide) (by decide), hp, docDir_length]
  have : out.length + 2 + full.length - (stem :: full).length = out.length + 1 := by simp; omega
  rw [this]
  simp only [docDir, List.append_assoc, List.take_append]
  rw [List.take_of_length_le (by omega)]
  simp [List.take_append]

/-! ### Tables -/

theorem item_link {p : List Text} {w : Text} (hw : '/' ∉ w) (hd : w ≠ "..".toList) : target p w = p.dropLast ++ [w] := by
  rw [target, cut_none hw, follow_one hd]

theorem module_link {p : List Text} {n : String} (h : Plain n) :
    target p (n.toList ++ "/index.html".toList) = p.dropLast ++ [n.toList, "index.html".toList] := by
  have : n.toList ++ "/index.html".toList = n.toList ++ '/' :: "index.html".toList := rfl
  rw [target, this, cut_one h.1, cut_none (by decide), follow_two _ (by decide)]
  intro e
  exact h.2 (by rw [e]; decide)

theorem tables_perm (checked : Bool) {out : List Text} {stem : String} {mods : List String} {p : List Text}
    (hp : p.dropLast = docDir out stem mods) : ∀ {ds : List Ast.Definition} {es : List Definition},
    simplifyDefinitions checked ds = some es → DefsWf ds →
    ((tables es).map fun l => (target p l.href, l.label)).Perm (ds.filterMap (entry out stem mods))
  | [], es, h, _ => by injection h with h; subst h; exact .nil
  | d :: ds, es, h, hw => by
    rw [simplifyDefinitions] at h
    rw [DefsWf] at hw
    cases h1 : simplifyDefinition checked d with
    | none => simp [h1] at h
    | some e =>
      cases hr : simplifyDefinitions checked ds with
      | none => simp [h1, hr] at h
      | some rest =>
        simp only [h1, hr, Option.bind_eq_bind, Option.bind_some, Option.pure_def, Option.some.injEq] at h
        subst h
        have ih := tables_perm checked hp hr hw.2
        have hpl := fun n hn => defName_plain hw.1 (n := n) hn
        have hh : '/' ∉ ".html".toList := by decide
        have fm : ∀ x, entry out stem mods d = some x → (d :: ds).filterMap (entry out stem mods) =
            x :: ds.filterMap (entry out stem mods) := fun x hx => List.filterMap_cons_some hx
        have move : ∀ (l : Link) (a b : List Link), ((a ++ l :: b).map fun l => (target p l.href, l.label)).Perm
            ((target p l.href, l.label) :: (a ++ b).map fun l => (target p l.href, l.label)) := fun l a b =>
          (List.perm_middle.map _)
        cases d with
        | module c n ds' =>
          obtain ⟨es', h2, rfl⟩ := simplify_module checked h1
          have e1 : tables (.module c n es' :: rest) = ⟨n.toList ++ "/index.html".toList, n⟩ :: tables rest := rfl
          rw [e1, List.map_cons, fm _ rfl]
          rw [module_link (hpl n rfl), hp]
          exact ih.cons _
        | struct s =>
          rw [simplifyDefinition] at h1
          cases h : simplifyFields checked s.fields with
          | none => simp [h] at h1
          | some fs =>
            simp only [h, Option.bind_eq_bind, Option.bind_some, Option.pure_def, Option.some.injEq] at h1
            subst h1
            have e1 : tables (.struct ⟨s.comment, s.name, s.generics, fs⟩ :: rest) = moduleLinks rest ++
                ⟨"struct.".toList ++ s.name.toList ++ ".html".toList, s.name⟩ ::
                  (structLinks rest ++ (enumLinks rest ++ (aliasLinks rest ++ constLinks rest))) := by
              simp [tables, moduleLinks, structLinks, enumLinks, aliasLinks, constLinks]
            rw [e1, fm _ rfl]
            refine (move _ _ _).trans ?_
            rw [item_link (slash_file (by decide) hh (hpl _ rfl)) (by simp), hp]
            refine List.Perm.cons _ ?_
            simpa [tables] using ih
        | enum s =>
          rw [simplifyDefinition] at h1
          cases h : simplifyVariants checked Compiler.idStart s.variants with
          | none => simp [h] at h1
          | some fs =>
            simp only [h, Option.bind_eq_bind, Option.bind_some, Option.pure_def, Option.some.injEq] at h1
            subst h1
            have e1 : tables (.enum ⟨s.comment, s.name, s.generics, fs⟩ :: rest) = (moduleLinks rest ++ structLinks rest) ++
                ⟨"enum.".toList ++ s.name.toList ++ ".html".toList, s.name⟩ ::
                  (enumLinks rest ++ (aliasLinks rest ++ constLinks rest)) := by
              simp [tables, moduleLinks, structLinks, enumLinks, aliasLinks, constLinks]
            rw [e1, fm _ rfl]
            refine (move _ _ _).trans ?_
            rw [item_link (slash_file (by decide) hh (hpl _ rfl)) (by simp), hp]
            refine List.Perm.cons _ ?_
            simpa [tables] using ih
        | typeAlias s =>
          injection h1 with h1; subst h1
          have e1 : tables (.typeAlias ⟨s.comment, s.name, s.generics, simplifyType s.target⟩ :: rest) =
              (moduleLinks rest ++ (structLinks rest ++ enumLinks rest)) ++
              ⟨"alias.".toList ++ s.name.toList ++ ".html".toList, s.name⟩ :: (aliasLinks rest ++ constLinks rest) := by
            simp [tables, moduleLinks, structLinks, enumLinks, aliasLinks, constLinks]
          rw [e1, fm _ rfl]
          refine (move _ _ _).trans ?_
          rw [item_link (slash_file (by decide) hh (hpl _ rfl)) (by simp), hp]
          refine List.Perm.cons _ ?_
          simpa [tables] using ih
        | const s =>
          injection h1 with h1; subst h1
          have e1 : tables (.const ⟨s.comment, s.name, simplifyType s.ty, s.value⟩ :: rest) =
              (moduleLinks rest ++ (structLinks rest ++ (enumLinks rest ++ aliasLinks rest))) ++
              ⟨"constant.".toList ++ s.name.toList ++ ".html".toList, s.name⟩ :: constLinks rest := by
            simp [tables, moduleLinks, structLinks, enumLinks, aliasLinks, constLinks]
          rw [e1, fm _ rfl]
          refine (move _ _ _).trans ?_
          rw [item_link (slash_file (by decide) hh (hpl _ rfl)) (by simp), hp]
          refine List.Perm.cons _ ?_
          simpa [tables] using ih
        | «import» i =>
          injection h1 with h1; subst h1
          rw [List.filterMap_cons_none rfl]
          simpa [tables, moduleLinks, structLinks, enumLinks, aliasLinks, constLinks] using ih

/-- The tables name exactly the pages of the definitions. -/
theorem tables_mem (checked : Bool) {out : List Text} {stem : String} {mods : List String} {p : List Text}
    (hp : p.dropLast = docDir out stem mods) {ds : List Ast.Definition} {es : List Definition}
    (hs : simplifyDefinitions checked ds = some es) (hw : DefsWf ds) {d : Ast.Definition} (hd : d ∈ ds) {f : List Text}
    (hf : pageFile d = some f) : ∃ l ∈ tables es, target p l.href = docDir out stem mods ++ f := by
  have h := tables_perm checked hp hs hw
  have hn : ∃ n, defName d = some n := by cases d <;> first | exact ⟨_, rfl⟩ | cases hf
  obtain ⟨n, hn⟩ := hn
  have hm : (docDir out stem mods ++ f, n) ∈ ds.filterMap (entry out stem mods) :=
    List.mem_filterMap.2 ⟨d, hd, by simp only [entry, hf, hn]⟩
  obtain ⟨l, hl, e⟩ := List.mem_map.1 (h.mem_iff.2 hm)
  exact ⟨l, hl, by injection e⟩

end Mabo.Doc
