import Verif.Lsp.Diagnostics
import Verif.Compiler.ValidateLemmas3
/-! The validator with locations: where its errors come from, and that it agrees with the one without locations. -/
namespace Mabo.Lsp.Spans
open Mabo.Spanned (Span Name)
open Mabo.Spec
open Mabo.Compiler (nextId idStart visit ValidateError scan scan_err idPre idPre_err assignFrom assignFrom_cons nextId_eq
  visit_cases andThen_fail andThen_ok_left map_getElem? getElem?_of_map)

/-! ### Scans -/

/-- Things with ids as scan items. -/
def idScan {α ν : Type} (checked : Bool) (given : α → Option (BitVec 32)) (label : Nat → α → ν) (post : α → Check) :
    Nat → BitVec 32 → List α → List (Compiler.Item (BitVec 32) ν Finding)
  | _, _, [] => []
  | p, g, a :: as => ⟨idPre checked ((given a).getD g), (given a).getD g, label p a, post a⟩ ::
      idScan checked given label post (p + 1) ((given a).getD g + 1) as

section
variable {α ν : Type} {checked : Bool} {given : α → Option (BitVec 32)} {label : Nat → α → ν} {post : α → Check}

theorem idScan_keys : ∀ (as : List α) (p : Nat) (g : BitVec 32),
    (idScan checked given label post p g as).map (·.key) = assignFrom g (as.map given)
  | [], _, _ => rfl
  | a :: as, p, g => by simp [idScan, assignFrom_cons, idScan_keys as]

theorem idScan_at : ∀ (as : List α) (p : Nat) (g : BitVec 32) (i : Nat) (x : Compiler.Item (BitVec 32) ν Finding),
    (idScan checked given label post p g as)[i]? = some x →
    ∃ a, as[i]? = some a ∧ x.label = label (p + i) a ∧ x.pre = idPre checked x.key ∧ x.post = post a
  | [], _, _, _, _, h => by simp [idScan] at h
  | a :: as, p, g, 0, x, h => by
    simp only [idScan, List.getElem?_cons_zero, Option.some.injEq] at h
    subst h
    exact ⟨a, rfl, rfl, rfl, rfl⟩
  | a :: as, p, g, i + 1, x, h => by
    simp only [idScan, List.getElem?_cons_succ] at h
    obtain ⟨b, h1, h2, h3⟩ := idScan_at as (p + 1) _ i x h
    exact ⟨b, by simpa using h1, by rw [h2]; congr 1; omega, h3⟩

theorem idScan_err {mk : BitVec 32 → ν → ν → Finding} {as : List α} {e : Finding}
    (h : scan mk [] (idScan checked given label post 0 idStart as) = .err e) :
    (∃ (i : Nat) (a : α), as[i]? = some a ∧ post a = .err e) ∨
    ∃ (i j : Nat) (a b : α) (id : BitVec 32), as[i]? = some a ∧ as[j]? = some b ∧ e = mk id (label i a) (label j b) ∧
      Clash (assignFrom 1 (as.map given)) i j id := by
  have hk := idScan_keys (checked := checked) (given := given) (label := label) (post := post) as 0 idStart
  rcases scan_err (by simp) h with ⟨x, hx, hh⟩ | ⟨i, x, o, hi, he, hn, hw⟩
  · obtain ⟨i, hi⟩ := List.getElem?_of_mem hx
    obtain ⟨a, h1, _, h3, h4⟩ := idScan_at as 0 idStart i x hi
    rw [h3, h4] at hh
    rcases hh with hh | hh
    · exact absurd hh idPre_err
    · exact .inl ⟨i, a, h1, hh⟩
  · rcases hw with hw | ⟨j, y, hj, hy, hyk, hyl⟩
    · simp at hw
    · obtain ⟨a, a1, a2, _⟩ := idScan_at as 0 idStart i x hi
      obtain ⟨b, b1, b2, _⟩ := idScan_at as 0 idStart j y hy
      have hxk := map_getElem? (f := (·.key)) hi
      have hyk' := map_getElem? (f := (·.key)) hy
      rw [hk] at hxk hyk'
      refine .inr ⟨i, j, a, b, x.key, a1, b1, ?_, hj, hxk, hyk ▸ hyk', ?_⟩
      · rw [he, a2, ← hyl, b2, Nat.zero_add, Nat.zero_add]
      · simp only [List.map_nil, List.nil_append, List.map_take, hk] at hn; exact hn

/-- Named things as scan items. -/
def nameScan {α : Type} (name : α → Name) (post : α → Check) (as : List α) : List (Compiler.Item String Span Finding) :=
  as.map fun a => ⟨.ok, (name a).value, (name a).span, post a⟩

theorem nameScan_err {name : α → Name} {mk : String → Span → Span → Finding} {as : List α} {e : Finding}
    (h : scan mk [] (nameScan name post as) = .err e) :
    (∃ (i : Nat) (a : α), as[i]? = some a ∧ post a = .err e) ∨
    ∃ (i j : Nat) (a b : α), as[i]? = some a ∧ as[j]? = some b ∧ e = mk (name a).value (name a).span (name b).span ∧
      Clash (as.map fun a => (name a).value) i j (name a).value := by
  rcases scan_err (by simp) h with ⟨x, hx, hh⟩ | ⟨i, x, o, hi, he, hn, hw⟩
  · obtain ⟨i, hi⟩ := List.getElem?_of_mem hx
    obtain ⟨a, h1, rfl⟩ := getElem?_of_map hi
    rcases hh with hh | hh
    · cases hh
    · exact .inl ⟨i, a, h1, hh⟩
  · rcases hw with hw | ⟨j, y, hj, hy, hyk, hyl⟩
    · simp at hw
    · obtain ⟨a, a1, rfl⟩ := getElem?_of_map hi
      obtain ⟨b, b1, rfl⟩ := getElem?_of_map hy
      refine .inr ⟨i, j, a, b, a1, b1, by rw [he, ← hyl], hj, map_getElem? a1, ?_, ?_⟩
      · rw [map_getElem? (f := fun a => (name a).value) b1]; exact congrArg _ hyk
      · simp only [nameScan, List.map_nil, List.nil_append, List.map_take, List.map_map, Function.comp_def] at hn
        rw [← List.map_take] at hn
        rw [← List.map_take]; exact hn
end

/-- What a named thing shows of its id. -/
def namedLabel (f : Spanned.NamedField) : String × Span := (f.name.value, idSpan f.id f.span)
/-- The same for a variant. -/
def variantLabel (v : Spanned.Variant) : String × Span := (v.name.value, idSpan v.id v.span)

theorem namedIds_scan (checked : Bool) : ∀ (fs : List Spanned.NamedField) (p : Nat) (g : BitVec 32) (vis : List (BitVec 32 × (String × Span))),
    namedIds checked g vis fs =
      scan (fun id x o => ⟨.duplicateId (.named id x.1 o.1), some o.2, x.2⟩) vis
        (idScan checked (fun f : Spanned.NamedField => f.id.map Spanned.Id.value) (fun _ f => namedLabel f) (fun _ => .ok) p g fs)
  | [], _, _, _ => rfl
  | f :: fs, p, g, vis => by
    simp only [namedIds, idScan, scan, nextId_eq, idPre]
    split
    · rename_i h
      split at h
      · rename_i hc; simp [hc, Compiler.Outcome.andThen]
      · cases h
    · rename_i id gen h
      split at h
      · cases h
      · rename_i hc
        simp only [Option.some.injEq, Prod.mk.injEq] at h
        obtain ⟨rfl, rfl⟩ := h
        simp only [hc, if_false, andThen_ok_left, namedLabel]
        cases visit ((f.id.map Spanned.Id.value).getD g) (f.name.value, idSpan f.id f.span) vis with
        | inl o => rfl
        | inr v => exact namedIds_scan checked fs _ _ _

theorem unnamedIds_scan (checked : Bool) : ∀ (fs : List Spanned.UnnamedField) (p : Nat) (g : BitVec 32) (vis : List (BitVec 32 × (Nat × Span))),
    unnamedIds checked p g vis fs =
      scan (fun id x o => ⟨.duplicateId (.unnamed id (x.1 + 1) (o.1 + 1)), some o.2, x.2⟩) vis
        (idScan checked (fun f : Spanned.UnnamedField => f.id.map Spanned.Id.value) (fun p f => (p, idSpan f.id f.span)) (fun _ => .ok) p g fs)
  | [], _, _, _ => rfl
  | f :: fs, p, g, vis => by
    simp only [unnamedIds, idScan, scan, nextId_eq, idPre]
    split
    · rename_i h
      split at h
      · rename_i hc; simp [hc, Compiler.Outcome.andThen]
      · cases h
    · rename_i id gen h
      split at h
      · cases h
      · rename_i hc
        simp only [Option.some.injEq, Prod.mk.injEq] at h
        obtain ⟨rfl, rfl⟩ := h
        simp only [hc, if_false, andThen_ok_left]
        cases visit ((f.id.map Spanned.Id.value).getD g) (p, idSpan f.id f.span) vis with
        | inl o => rfl
        | inr v => exact unnamedIds_scan checked fs _ _ _

theorem variantIds_scan (checked : Bool) : ∀ (fs : List Spanned.Variant) (p : Nat) (g : BitVec 32) (vis : List (BitVec 32 × (String × Span))),
    variantIds checked g vis fs =
      scan (fun id x o => ⟨.duplicateId (.variant id x.1 o.1), some o.2, x.2⟩) vis
        (idScan checked (fun f : Spanned.Variant => f.id.map Spanned.Id.value) (fun _ f => variantLabel f)
          (fun v => validateFieldIds checked v.fields) p g fs)
  | [], _, _, _ => rfl
  | f :: fs, p, g, vis => by
    simp only [variantIds, idScan, scan, nextId_eq, idPre]
    split
    · rename_i h
      split at h
      · rename_i hc; simp [hc, Compiler.Outcome.andThen]
      · cases h
    · rename_i id gen h
      split at h
      · cases h
      · rename_i hc
        simp only [Option.some.injEq, Prod.mk.injEq] at h
        obtain ⟨rfl, rfl⟩ := h
        simp only [hc, if_false, andThen_ok_left, variantLabel]
        cases visit ((f.id.map Spanned.Id.value).getD g) (f.name.value, idSpan f.id f.span) vis with
        | inl o => rfl
        | inr v => simp only []; rw [variantIds_scan checked fs _ _ _]; rfl

theorem fieldNames_scan : ∀ (fs : List Spanned.NamedField) (vis : List (String × Span)),
    fieldNames vis fs = scan (fun n x o => ⟨.duplicateName (.field n), some o, x⟩) vis (nameScan (·.name) (fun _ => .ok) fs)
  | [], _ => rfl
  | f :: fs, vis => by
    simp only [fieldNames, nameScan, List.map_cons, scan, andThen_ok_left]
    cases visit f.name.value f.name.span vis with
    | inl o => rfl
    | inr v => exact fieldNames_scan fs v

theorem variantNames_scan : ∀ (vs : List Spanned.Variant) (vis : List (String × Span)),
    variantNames vis vs = scan (fun n x o => ⟨.duplicateName (.variant n), some o, x⟩) vis
      (nameScan (·.name) (fun v => validateFieldNames v.fields) vs)
  | [], _ => rfl
  | f :: fs, vis => by
    simp only [variantNames, nameScan, List.map_cons, scan, andThen_ok_left]
    cases visit f.name.value f.name.span vis with
    | inl o => rfl
    | inr v => simp only []; rw [variantNames_scan fs v]; rfl

theorem duplicateGenerics_scan : ∀ (gs : List Name) (vis : List (String × Span)),
    duplicateGenerics vis gs = scan (fun n x o => ⟨.invalidGeneric (.duplicate n), some o, x⟩) vis
      (nameScan (fun n => n) (fun _ => .ok) gs)
  | [], _ => rfl
  | f :: fs, vis => by
    simp only [duplicateGenerics, nameScan, List.map_cons, scan, andThen_ok_left]
    cases visit f.value f.span vis with
    | inl o => rfl
    | inr v => exact duplicateGenerics_scan fs v

theorem introduced_erase (d : Spanned.Definition) :
    introduced d.erase = ((definitionName d).map (·.value)).toList := by
  rw [Compiler.definitionName_introduced]
  congr 1
  cases d with
  | «import» i =>
    obtain ⟨k, segs, el, c⟩ := i
    cases el <;> simp [Spanned.Definition.erase, Compiler.definitionName, definitionName, Spanned.Import.erase]
  | _ => simp [Spanned.Definition.erase, Compiler.definitionName, definitionName, Spanned.Struct.erase, Spanned.Enum.erase, Spanned.TypeAlias.erase, Spanned.Const.erase]

theorem moduleNames_err {e : Finding} : ∀ (ds pre : List Spanned.Definition) (vis : List (String × Span)),
    (∀ k sp, (k, sp) ∈ vis → ∃ (j : Nat) (d : Spanned.Definition) (n : Name), pre[j]? = some d ∧ definitionName d = some n ∧ n.value = k ∧ n.span = sp) →
    (∀ k ∈ pre.flatMap (fun d => introduced d.erase), k ∈ vis.map (·.1)) →
    (pre.flatMap (fun d => introduced d.erase)).Nodup → moduleNames vis ds = .err e →
    ∃ (i j : Nat) (d d' : Spanned.Definition) (n n' : Name), j < i ∧ (pre ++ ds)[i]? = some d ∧ (pre ++ ds)[j]? = some d' ∧ definitionName d = some n ∧
      definitionName d' = some n' ∧ n'.value = n.value ∧ (((pre ++ ds).take i).flatMap (fun d => introduced d.erase)).Nodup ∧
      e = ⟨.duplicateName (.inModule n.value), some n'.span, n.span⟩
  | [], _, _, _, _, _, h => by cases h
  | d :: ds, pre, vis, h1, h2, h3, h => by
    have hi := introduced_erase d
    have hstep : pre ++ d :: ds = (pre ++ [d]) ++ ds := by simp
    have hget : ∀ {j : Nat} {x : Spanned.Definition}, pre[j]? = some x → (pre ++ [d])[j]? = some x := fun {j x} hj => by
      rw [List.getElem?_append_left (List.getElem?_eq_some_iff.1 hj).1]; exact hj
    cases hn : definitionName d with
    | none =>
      simp only [moduleNames, hn] at h
      rw [hn] at hi
      rw [hstep]
      refine moduleNames_err ds (pre ++ [d]) vis (fun k sp hk => ?_) (by simpa [hi] using h2) (by simpa [hi] using h3) h
      obtain ⟨j, x, n, a, b⟩ := h1 k sp hk
      exact ⟨j, x, n, hget a, b⟩
    | some n =>
      simp only [moduleNames, hn] at h
      rw [hn] at hi
      rcases visit_cases n.value n.span vis with ⟨o, ho, hm⟩ | ⟨hv, hk⟩
      · rw [ho] at h
        simp only [Compiler.Outcome.err.injEq] at h
        obtain ⟨j, x, n', a, b, c, c'⟩ := h1 _ _ hm
        have hj := (List.getElem?_eq_some_iff.1 a).1
        refine ⟨pre.length, j, d, x, n, n', hj, by simp, ?_, hn, b, c, by simpa using h3, by rw [← h, c']⟩
        rw [List.getElem?_append_left hj]; exact a
      · rw [hv] at h
        rw [hstep]
        refine moduleNames_err ds (pre ++ [d]) _ (fun k sp hk' => ?_) ?_ ?_ h
        · rcases List.mem_cons.1 hk' with e1 | hk'
          · injection e1 with e1 e2
            exact ⟨pre.length, d, n, by simp, hn, e1.symm, e2.symm⟩
          · obtain ⟨j, x, n, a, b⟩ := h1 k sp hk'
            exact ⟨j, x, n, hget a, b⟩
        · intro k hk'
          simp only [List.flatMap_append, List.flatMap_cons, List.flatMap_nil, hi, List.mem_append, Option.map_some,
            Option.toList_some, List.append_nil, List.mem_singleton] at hk'
          rcases hk' with hk' | rfl
          · exact List.mem_cons_of_mem _ (h2 k hk')
          · exact List.mem_cons_self
        · simp only [List.flatMap_append, List.flatMap_cons, List.flatMap_nil, hi, Option.map_some, Option.toList_some,
            List.append_nil]
          rw [List.nodup_append]
          refine ⟨h3, by simp, fun a ha b hb => ?_⟩
          rw [List.mem_singleton] at hb
          subst hb
          rintro rfl
          exact hk (h2 _ ha)

/-! ### Unused type parameters -/

theorem markUsed_mem {u : List Name} {x : List String × String × List Ast.DataType} {n : Name} :
    n ∈ markUsed u x ↔ n ∈ u ∧ n.value ∈ Compiler.markUsed (u.map (·.value)) x := by
  unfold markUsed Compiler.markUsed
  by_cases h : x.1.isEmpty ∧ x.2.2.isEmpty
  · rw [if_pos h, if_pos h]
    simp only [List.mem_filter, List.mem_map]
    constructor
    · rintro ⟨h1, h2⟩; exact ⟨h1, ⟨n, h1, rfl⟩, h2⟩
    · rintro ⟨h1, _, h2⟩; exact ⟨h1, h2⟩
  · rw [if_neg h, if_neg h]
    exact ⟨fun h => ⟨h, List.mem_map.2 ⟨n, h, rfl⟩⟩, fun h => h.1⟩

theorem markUsed_map (u : List Name) (x : List String × String × List Ast.DataType) :
    (markUsed u x).map (·.value) = Compiler.markUsed (u.map (·.value)) x := by
  unfold markUsed Compiler.markUsed
  split
  · rw [List.filter_map]; rfl
  · rfl

theorem foldl_map_comm {α β γ : Type} (f : β → α → β) (g : γ → α → γ) (m : β → γ) (h : ∀ b a, m (f b a) = g (m b) a) :
    ∀ (l : List α) (b : β), m (l.foldl f b) = l.foldl g (m b)
  | [], _ => rfl
  | a :: l, b => by rw [List.foldl_cons, List.foldl_cons, foldl_map_comm f g m h l, h]

theorem fieldGenerics_map (f : Spanned.Fields) (u : List Name) :
    (fieldGenerics f u).map (·.value) = Compiler.fieldGenerics f.erase (u.map (·.value)) := by
  unfold fieldGenerics Compiler.fieldGenerics
  refine foldl_map_comm _ _ (List.map Name.value) (fun u t => ?_) _ _
  exact foldl_map_comm _ _ (List.map Name.value) (fun u x => markUsed_map u x) _ _

theorem variantGenerics_map (vs : List Spanned.Variant) (u : List Name) :
    (vs.foldl (fun u v => fieldGenerics v.fields u) u).map (·.value) =
      (vs.map Spanned.Variant.erase).foldl (fun u v => Compiler.fieldGenerics v.fields u) (u.map (·.value)) := by
  rw [List.foldl_map]
  exact foldl_map_comm _ _ (List.map Name.value) (fun u (v : Spanned.Variant) => fieldGenerics_map v.fields u) _ _

theorem markUsed_sub (u : List Name) (x : List String × String × List Ast.DataType) : ∀ n ∈ markUsed u x, n ∈ u := by
  intro n h
  exact (markUsed_mem.1 h).1

theorem foldl_sub {α β : Type} (f : List β → α → List β) (h : ∀ u a, ∀ n ∈ f u a, n ∈ u) : ∀ (l : List α) (u : List β),
    ∀ n ∈ l.foldl f u, n ∈ u
  | [], _, _, hn => hn
  | a :: l, u, n, hn => h u a n (foldl_sub f h l _ n hn)

theorem fieldGenerics_sub (f : Spanned.Fields) (u : List Name) : ∀ n ∈ fieldGenerics f u, n ∈ u :=
  foldl_sub _ (fun u _ => foldl_sub _ markUsed_sub _ u) _ u

theorem variantGenerics_sub (vs : List Spanned.Variant) (u : List Name) :
    ∀ n ∈ vs.foldl (fun u v => fieldGenerics v.fields u) u, n ∈ u :=
  foldl_sub _ (fun u (v : Spanned.Variant) => fieldGenerics_sub v.fields u) _ u

/-! ### Agreement -/

/-- The same error, where any unused type parameter may be reported. -/
def SameError (a b : ValidateError) : Prop :=
  a = b ∨ ∃ m n, a = .invalidGeneric (.unused m) ∧ b = .invalidGeneric (.unused n)

/-- The same outcome. -/
inductive Same : Check → Compiler.Outcome ValidateError → Prop
  | ok : Same .ok .ok
  | panic : Same .panic .panic
  | err {f e} : SameError f.error e → Same (.err f) (.err e)

theorem Same.andThen {a a' : Check} {b b'} (h : Same a b) (h' : Same a' b') : Same (a.andThen a') (b.andThen b') := by
  cases h with
  | ok => exact h'
  | panic => exact .panic
  | err h => exact .err h

theorem Same.of_mapErr {a : Check} {b} (h : a.mapErr (·.error) = b) : Same a b := by
  subst h
  cases a with
  | ok => exact .ok
  | panic => exact .panic
  | err f => exact .err (.inl rfl)

theorem mapErr_andThen {ε ε' : Type} (f : ε → ε') (a b : Compiler.Outcome ε) :
    (a.andThen b).mapErr f = (a.mapErr f).andThen (b.mapErr f) := by cases a <;> rfl

/-- Visiting with less information. -/
theorem visit_map {κ ν ν' : Type} [DecidableEq κ] (f : ν → ν') (k : κ) (v : ν) (m : List (κ × ν)) :
    visit k (f v) (m.map fun e => (e.1, f e.2)) = (match visit k v m with
      | .inl o => .inl (f o)
      | .inr m => .inr (m.map fun e => (e.1, f e.2))) := by
  unfold visit
  rw [List.find?_map]
  simp only [Function.comp_def]
  cases List.find? (fun e => e.1 == k) m <;> rfl

theorem namedIds_same (checked : Bool) : ∀ (fs : List Spanned.NamedField) (g : BitVec 32) (vis : List (BitVec 32 × (String × Span))),
    (namedIds checked g vis fs).mapErr (·.error) =
      (Compiler.namedIds checked g (vis.map fun e => (e.1, e.2.1)) (fs.map Spanned.NamedField.erase)).mapErr .duplicateId
  | [], _, _ => rfl
  | f :: fs, g, vis => by
    have hv := fun id => visit_map (κ := BitVec 32) (fun x : String × Span => x.1) id (f.name.value, idSpan f.id f.span) vis
    simp only [namedIds, List.map_cons, Compiler.namedIds, Spanned.NamedField.erase]
    cases nextId checked g (f.id.map Spanned.Id.value) with
    | none => rfl
    | some x =>
      simp only [hv]
      cases visit x.1 (f.name.value, idSpan f.id f.span) vis with
      | inl o => rfl
      | inr v => exact namedIds_same checked fs _ _

theorem unnamedIds_same (checked : Bool) : ∀ (fs : List Spanned.UnnamedField) (p : Nat) (g : BitVec 32) (vis : List (BitVec 32 × (Nat × Span))),
    (unnamedIds checked p g vis fs).mapErr (·.error) =
      (Compiler.unnamedIds checked p g (vis.map fun e => (e.1, e.2.1)) (fs.map Spanned.UnnamedField.erase)).mapErr .duplicateId
  | [], _, _, _ => rfl
  | f :: fs, p, g, vis => by
    have hv := fun id => visit_map (κ := BitVec 32) (fun x : Nat × Span => x.1) id (p, idSpan f.id f.span) vis
    simp only [unnamedIds, List.map_cons, Compiler.unnamedIds, Spanned.UnnamedField.erase]
    cases nextId checked g (f.id.map Spanned.Id.value) with
    | none => rfl
    | some x =>
      simp only [hv]
      cases visit x.1 (p, idSpan f.id f.span) vis with
      | inl o => rfl
      | inr v => exact unnamedIds_same checked fs _ _ _

theorem validateFieldIds_same (checked : Bool) (f : Spanned.Fields) :
    (validateFieldIds checked f).mapErr (·.error) = (Compiler.validateFieldIds checked f.erase).mapErr .duplicateId := by
  cases f with
  | named d => exact namedIds_same checked _ _ []
  | unnamed d => exact unnamedIds_same checked _ _ _ []
  | unit => rfl

theorem variantIds_same (checked : Bool) : ∀ (fs : List Spanned.Variant) (g : BitVec 32) (vis : List (BitVec 32 × (String × Span))),
    (variantIds checked g vis fs).mapErr (·.error) =
      (Compiler.variantIds checked g (vis.map fun e => (e.1, e.2.1)) (fs.map Spanned.Variant.erase)).mapErr .duplicateId
  | [], _, _ => rfl
  | f :: fs, g, vis => by
    have hv := fun id => visit_map (κ := BitVec 32) (fun x : String × Span => x.1) id (f.name.value, idSpan f.id f.span) vis
    simp only [variantIds, List.map_cons, Compiler.variantIds, Spanned.Variant.erase]
    cases nextId checked g (f.id.map Spanned.Id.value) with
    | none => rfl
    | some x =>
      simp only [hv]
      cases visit x.1 (f.name.value, idSpan f.id f.span) vis with
      | inl o => rfl
      | inr v =>
        simp only [mapErr_andThen, validateFieldIds_same]
        rw [variantIds_same checked fs _ _]

theorem fieldNames_same : ∀ (fs : List Spanned.NamedField) (vis : List (String × Span)),
    (fieldNames vis fs).mapErr (·.error) =
      (Compiler.fieldNames (vis.map fun e => (e.1, ())) (fs.map Spanned.NamedField.erase)).mapErr .duplicateName
  | [], _ => rfl
  | f :: fs, vis => by
    have hv := visit_map (fun _ : Span => ()) f.name.value f.name.span vis
    simp only [fieldNames, List.map_cons, Compiler.fieldNames, Spanned.NamedField.erase, hv]
    cases visit f.name.value f.name.span vis with
    | inl o => rfl
    | inr v => exact fieldNames_same fs _

theorem validateFieldNames_same (f : Spanned.Fields) :
    (validateFieldNames f).mapErr (·.error) = (Compiler.validateFieldNames f.erase).mapErr .duplicateName := by
  cases f with
  | named d => exact fieldNames_same _ []
  | unnamed d => rfl
  | unit => rfl

theorem variantNames_same : ∀ (fs : List Spanned.Variant) (vis : List (String × Span)),
    (variantNames vis fs).mapErr (·.error) =
      (Compiler.variantNames (vis.map fun e => (e.1, ())) (fs.map Spanned.Variant.erase)).mapErr .duplicateName
  | [], _ => rfl
  | f :: fs, vis => by
    have hv := visit_map (fun _ : Span => ()) f.name.value f.name.span vis
    simp only [variantNames, List.map_cons, Compiler.variantNames, Spanned.Variant.erase, hv]
    cases visit f.name.value f.name.span vis with
    | inl o => rfl
    | inr v =>
      simp only [mapErr_andThen, validateFieldNames_same]
      rw [variantNames_same fs _]

theorem definitionName_erase (d : Spanned.Definition) :
    Compiler.definitionName d.erase = (definitionName d).map (·.value) := by
  cases d with
  | «import» i =>
    obtain ⟨k, segs, el, c⟩ := i
    cases el <;> simp [Spanned.Definition.erase, Compiler.definitionName, definitionName, Spanned.Import.erase]
  | _ => simp [Spanned.Definition.erase, Compiler.definitionName, definitionName, Spanned.Struct.erase, Spanned.Enum.erase, Spanned.TypeAlias.erase, Spanned.Const.erase]

theorem moduleNames_same : ∀ (ds : List Spanned.Definition) (vis : List (String × Span)),
    (moduleNames vis ds).mapErr (·.error) =
      (Compiler.moduleNames (vis.map fun e => (e.1, ())) (ds.map Spanned.Definition.erase)).mapErr .duplicateName
  | [], _ => rfl
  | d :: ds, vis => by
    simp only [moduleNames, List.map_cons, Compiler.moduleNames, definitionName_erase]
    cases definitionName d with
    | none => exact moduleNames_same ds vis
    | some n =>
      have hv := visit_map (fun _ : Span => ()) n.value n.span vis
      simp only [Option.map_some, hv]
      cases visit n.value n.span vis with
      | inl o => rfl
      | inr v => exact moduleNames_same ds _

theorem duplicateGenerics_same : ∀ (ds : List Name) (vis : List (String × Span)),
    (duplicateGenerics vis ds).mapErr (·.error) =
      (Compiler.duplicateGenerics (vis.map fun e => (e.1, ())) (ds.map (·.value))).mapErr .invalidGeneric
  | [], _ => rfl
  | n :: ds, vis => by
    have hv := visit_map (fun _ : Span => ()) n.value n.span vis
    simp only [duplicateGenerics, List.map_cons, Compiler.duplicateGenerics, hv]
    cases visit n.value n.span vis with
    | inl o => rfl
    | inr v => exact duplicateGenerics_same ds _

theorem validateGenerics_same {pick : List Name → Option Name} (h1 : ∀ l a, pick l = some a → a ∈ l) (h2 : ∀ l, pick l = none → l = [])
    (g : Option (Spanned.Delimited (Spanned.Punctuated Name))) (mark : List Name → List Name) (mark' : List String → List String)
    (hm : ∀ u, (mark u).map (·.value) = mark' (u.map (·.value))) (h0 : mark' [] = []) :
    Same (validateGenerics pick g mark)
      ((if (Spanned.eraseGenerics g).1.isEmpty then .ok
        else (Compiler.duplicateGenerics [] (Spanned.eraseGenerics g).1).andThen
          (Compiler.unusedError (mark' (Spanned.eraseGenerics g).1))).mapErr .invalidGeneric) := by
  have hu : ∀ u : List Name, Same (unusedError pick (mark u)) ((Compiler.unusedError (mark' (u.map (·.value)))).mapErr .invalidGeneric) := by
    intro u
    rw [← hm]
    unfold unusedError
    cases hp : pick (mark u) with
    | none => rw [h2 _ hp]; exact .ok
    | some a =>
      have := h1 _ _ hp
      cases hl : mark u with
      | nil => rw [hl] at this; cases this
      | cons b l => exact .err (.inr ⟨a.value, b.value, rfl, rfl⟩)
  cases g with
  | none => exact .ok
  | some d =>
    have hd := Same.of_mapErr (duplicateGenerics_same d.inner.values [])
    have := hd.andThen (hu d.inner.values)
    rw [← mapErr_andThen] at this
    have key : ∀ l : List String, l = d.inner.values.map Name.value → Same (validateGenerics pick (some d) mark)
        ((if l.isEmpty then .ok else (Compiler.duplicateGenerics [] l).andThen (Compiler.unusedError (mark' l))).mapErr
          .invalidGeneric) := by
      intro l hl
      cases l with
      | nil =>
        rw [← hl] at this
        rw [h0] at this
        exact this
      | cons a l =>
        rw [← hl] at this
        exact this
    exact key _ rfl

theorem tupleSizes_same (t : Spanned.Ty) : (tupleSizes t).mapErr (·.error) = (Compiler.tupleSizes t.erase).mapErr .tupleSize := by
  unfold tupleSizes
  cases Compiler.tupleSizes t.erase <;> rfl

theorem fieldTypes_erase (f : Spanned.Fields) : Compiler.fieldTypes f.erase = (fieldTypes f).map Spanned.Ty.erase := by
  cases f <;> simp [Compiler.fieldTypes, Spanned.Fields.erase, fieldTypes, Function.comp_def, Spanned.NamedField.erase, Spanned.UnnamedField.erase]

theorem tryForEach_same {α β ε : Type} {f : α → Check} {g : β → Compiler.Outcome ε} {m : α → β} {k : ε → ValidateError}
    (h : ∀ a, (f a).mapErr (·.error) = (g (m a)).mapErr k) : ∀ l : List α,
    (Compiler.tryForEach f l).mapErr (·.error) = (Compiler.tryForEach g (l.map m)).mapErr k
  | [] => rfl
  | a :: l => by
    simp only [Compiler.tryForEach, List.map_cons, mapErr_andThen, h, tryForEach_same h l]

theorem validateFieldTuples_same (f : Spanned.Fields) :
    (validateFieldTuples f).mapErr (·.error) = (Compiler.validateFieldTuples f.erase).mapErr .tupleSize := by
  rw [validateFieldTuples, Compiler.validateFieldTuples, fieldTypes_erase]
  exact tryForEach_same tupleSizes_same _

section
variable {pick : List Name → Option Name} (h1 : ∀ l a, pick l = some a → a ∈ l) (h2 : ∀ l, pick l = none → l = [])
include h1 h2

theorem validateStruct_same (checked : Bool) (s : Spanned.Struct) :
    Same (validateStruct checked pick s) (Compiler.validateStruct checked s.erase) := by
  refine (Same.of_mapErr (validateFieldIds_same checked s.fields)).andThen ?_
  refine (Same.of_mapErr (validateFieldNames_same s.fields)).andThen ?_
  refine Same.andThen ?_ (Same.of_mapErr (validateFieldTuples_same s.fields))
  have h0 : Compiler.fieldGenerics s.fields.erase [] = [] := by
    have := fieldGenerics_sub s.fields []
    rw [show ([] : List String) = ([] : List Name).map (·.value) from rfl, ← fieldGenerics_map]
    rw [List.eq_nil_iff_forall_not_mem.2 fun n hn => nomatch this n hn]
  exact validateGenerics_same h1 h2 s.generics _ _ (fieldGenerics_map s.fields) h0

theorem validateEnum_same (checked : Bool) (e : Spanned.Enum) :
    Same (validateEnum checked pick e) (Compiler.validateEnum checked e.erase) := by
  refine (Same.of_mapErr (variantIds_same checked e.variants.inner.values _ [])).andThen ?_
  refine (Same.of_mapErr (variantNames_same e.variants.inner.values [])).andThen ?_
  refine Same.andThen ?_ (Same.of_mapErr (tryForEach_same (m := Spanned.Variant.erase) (g := fun v => Compiler.validateFieldTuples v.fields)
    (fun v : Spanned.Variant => validateFieldTuples_same v.fields) _))
  have h0 : (e.variants.inner.values.map Spanned.Variant.erase).foldl (fun u v => Compiler.fieldGenerics v.fields u) [] = [] := by
    have := variantGenerics_sub e.variants.inner.values []
    rw [show ([] : List String) = ([] : List Name).map (·.value) from rfl, ← variantGenerics_map]
    rw [List.eq_nil_iff_forall_not_mem.2 fun n hn => nomatch this n hn]
  exact validateGenerics_same h1 h2 e.generics _
    (fun u => (e.variants.inner.values.map Spanned.Variant.erase).foldl (fun u v => Compiler.fieldGenerics v.fields u) u)
    (variantGenerics_map e.variants.inner.values) h0

mutual
theorem validateDefinition_same (checked : Bool) : ∀ d : Spanned.Definition,
    Same (validateDefinition checked pick d) (Compiler.validateDefinition checked d.erase)
  | .module _ _ _ _ ds _ => by
    simp only [validateDefinition, Spanned.Definition.erase, Compiler.validateDefinition]
    exact (Same.of_mapErr (moduleNames_same ds [])).andThen (validateDefinitions_same checked ds)
  | .struct s => by
    simp only [validateDefinition, Spanned.Definition.erase, Compiler.validateDefinition]
    exact validateStruct_same h1 h2 checked s
  | .enum e => by
    simp only [validateDefinition, Spanned.Definition.erase, Compiler.validateDefinition]
    exact validateEnum_same h1 h2 checked e
  | .typeAlias a => by
    simp only [validateDefinition, Spanned.Definition.erase, Compiler.validateDefinition]
    exact .of_mapErr (tupleSizes_same a.target)
  | .const c => by
    simp only [validateDefinition, Spanned.Definition.erase, Compiler.validateDefinition]
    exact .of_mapErr (tupleSizes_same c.ty)
  | .import _ => by
    simp only [validateDefinition, Spanned.Definition.erase, Compiler.validateDefinition]
    exact .ok
theorem validateDefinitions_same (checked : Bool) : ∀ ds : List Spanned.Definition,
    Same (validateDefinitions checked pick ds) (Compiler.validateDefinitions checked (ds.map Spanned.Definition.erase))
  | [] => by simp only [validateDefinitions, List.map_nil, Compiler.validateDefinitions]; exact .ok
  | d :: ds => by
    simp only [validateDefinitions, List.map_cons, Compiler.validateDefinitions]
    exact (validateDefinition_same checked d).andThen (validateDefinitions_same checked ds)
end

theorem validateSchema_same (checked : Bool) (s : Spanned.Schema) :
    Same (validateSchema checked pick s) (Compiler.validateSchema checked s.erase) :=
  (Same.of_mapErr (moduleNames_same s.definitions [])).andThen (validateDefinitions_same h1 h2 checked s.definitions)
end

end Mabo.Lsp.Spans
