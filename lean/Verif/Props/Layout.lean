import Verif.Rust.LayoutCrate
import Verif.Props.Rust
/-!
C82: what Rust demands of the emitted type definitions themselves — finite sizes, used type parameters, derived traits
(`Spec/Layout.lean`) — next to what it demands of the functions (C67).

Vocabulary: `defsOf files o` — the structs and enums of the crate with the types of their fields, as Rust reads what is
written (`Rust/Layout.lean`); `Compiles` — the emitted functions compile (C67).
-/
namespace Mabo.Props
open Mabo.Spec Mabo.Build Mabo.Layout
open Mabo.Rust (Rt BytesType base cratePaths itemAt_paths)
open Mabo.Parse (Text Std)

/-! ### Sizes -/

/-- C82, sizes, for any type definitions: Rust's check of a definition on its own is enough. If the type has a finite size with
its own parameters for arguments, then it has for all arguments of finite size. -/
theorem C82_size_once (D : Defs) (abs : List String) (k : Nat) :
    HasSize D (.named abs (params k)) ↔ ∀ args, (∀ a ∈ args, HasSize D a) → HasSize D (.named abs args) := by
  refine ⟨fun h args ha => fine_of_acc (sized_iff.1 h) args fun i t _ ht => ha t (List.mem_of_getElem? ht), fun h => h _ ?_⟩
  intro a ha
  rw [params, List.mem_map] at ha
  obtain ⟨j, _, rfl⟩ := ha
  exact acc_param j

/-- C82, sizes (partial: for definitions that mention each other in circles only below vectors, maps and sets; the full claim,
for all accepted projects, is refuted below). All types have finite sizes. -/
theorem C82_size_partial (D : Defs) (h : NoDirectCycle D) (abs : List String) (args : List Rt)
    (ha : ∀ a ∈ args, HasSize D a) : HasSize D (.named abs args) :=
  fine_of_acc (acc_direct h abs) args fun _ t _ ht => ha t (List.mem_of_getElem? ht)

/-- C82, sizes: the condition cannot be weakened for definitions that use named types without arguments. -/
theorem C82_size_exact (D : Defs) (hp : ∀ abs k fs f, D abs = some (k, fs) → f ∈ fs → plain f = true) :
    NoDirectCycle D ↔ ∀ abs k fs, D abs = some (k, fs) → HasSize D (.named abs (params k)) := by
  refine ⟨fun h abs k fs _ => C82_size_partial D h _ _ fun a ha => ?_, fun h => ⟨fun a => ?_⟩⟩
  · rw [params, List.mem_map] at ha
    obtain ⟨j, _, rfl⟩ := ha
    exact acc_param j
  · have sub : ∀ a, Acc (Edge D inPlace) a → Acc (DirectMention D) a := fun a h => by
      induction h with
      | intro a _ ih =>
        refine .intro _ fun b ⟨k, fs, f, hD, hf, hb⟩ => ih b ⟨k, fs, f, [], hD, hf, reach_of_direct f (hp a k fs f hD hf) hb⟩
    cases hD : D a with
    | none => exact .intro _ fun b ⟨k, fs, f, hD', _⟩ => by simp [hD] at hD'
    | some x => exact sub a (sized_iff.1 (h a x.1 x.2 hD))

/-! ### Type parameters and derived traits -/

/-- C82. In an accepted project whose functions compile, every type parameter of every type is mentioned in a field. -/
theorem C82_mentioned (order : Resolve.Order) (ho : Resolve.IsOrder order) (std : Std) (valid : Simplify.Schema → Bool)
    (checked : Bool) (inputs : List (String × Text)) (files : Files) (o : BytesType) (hn : (inputs.map (·.1)).Nodup)
    (h : compile order std valid checked inputs = ⟨.ok (), files⟩) (hg : Compiles files o) (abs : List String) (k : Nat)
    (fs : List Rt) (hd : defsOf files o abs = some (k, fs)) (i : Nat) (hi : i < k) : ∃ f ∈ fs, i ∈ paramsOf f := by
  have hg := compiles_iff.1 hg
  obtain ⟨it, hit, rfl, rfl⟩ := defs_some hg hd
  obtain ⟨hgen, hv, _⟩ := accepted_parts ho hn h
  obtain ⟨stem, s, mods, scope, d, rfl, h1, h2, h3, h4⟩ := itemAt_back hgen hit
  have hgp := (hv _ h1).generics d ⟨scope, Resolve.scope_scopeAt.2 ⟨_, h2⟩, h3⟩
  rw [← h4.generics] at hgp
  obtain ⟨fl, t, tr, hf, ht, hp⟩ := hgp.2 _ (List.getElem_mem hi)
  have hidx : it.generics.idxOf it.generics[i] = i := hgp.1.idxOf_getElem i hi
  have hgood := fun t ht => (goodField (hg _ it hit).2 (t := t) ht).1
  have key : ∀ (gs : Simplify.Fields), SameFields fl gs → ∃ u ∈ gs.fields.map (·.ty), SameType t u := fun gs hs => by
    have pick : ∀ {ts : List Ast.DataType} {us : List Simplify.Ty}, SameTypes ts us → t ∈ ts → ∃ u ∈ us, SameType t u := by
      intro ts
      induction ts with
      | nil => exact fun _ h => nomatch h
      | cons a as ih =>
        intro us hs hm
        cases hs with
        | cons h hs =>
          rcases List.mem_cons.1 hm with rfl | hm
          · exact ⟨_, List.mem_cons_self, h⟩
          · obtain ⟨u, hu, hs⟩ := ih hs hm
            exact ⟨u, List.mem_cons_of_mem _ hu, hs⟩
    cases hs with
    | named _ _ hs _ =>
      cases ht with
      | named f hf => exact pick hs (List.mem_map_of_mem (f := (·.ty)) hf)
    | unnamed _ _ hs _ =>
      cases ht with
      | unnamed f hf => exact pick hs (List.mem_map_of_mem (f := (·.ty)) hf)
    | unit => cases ht
  have fin : (∃ u ∈ fieldTypes it, SameType t u) →
      ∃ f ∈ rustTypes files o (stem :: mods ++ [defName d]) it, i ∈ paramsOf f := fun ⟨u, hu, hs⟩ => by
    refine ⟨Rust.rustOf o (lowerTy (resolvePath files (stem :: mods ++ [defName d]).dropLast) it.generics u),
      List.mem_map_of_mem (f := fun u => Rust.rustOf o (lowerTy _ it.generics u)) hu, ?_⟩
    have := param_ty (o := o) (look := resolvePath files (stem :: mods ++ [defName d]).dropLast) hs (hgood u hu)
      (List.getElem_mem hi) hp
    rwa [show (Rust.scopeAt files (stem :: mods ++ [defName d]).dropLast it.generics).generics = it.generics from rfl,
      hidx] at this
  cases h4 with
  | struct hs =>
    cases hs with
    | struct hs =>
      cases hf
      exact fin (key _ hs)
  | enum hs =>
    cases hs with
    | enum _ _ _ hs =>
      cases hf with
      | variant _ v hv =>
        have left : ∀ {fs : List Ast.Fields} {gs : List Simplify.Fields}, SameFieldLists fs gs → ∀ f ∈ fs,
            ∃ g ∈ gs, SameFields f g := by
          intro fs
          induction fs with
          | nil => exact fun _ _ h => nomatch h
          | cons a as ih =>
            intro gs hs f hm
            cases hs with
            | cons h hs =>
              rcases List.mem_cons.1 hm with rfl | hm
              · exact ⟨_, List.mem_cons_self, h⟩
              · obtain ⟨g, hg, hs⟩ := ih hs f hm
                exact ⟨g, List.mem_cons_of_mem _ hg, hs⟩
        obtain ⟨g, hgm, hs⟩ := left hs _ (List.mem_map_of_mem (f := (·.fields)) hv)
        obtain ⟨v', hv', rfl⟩ := List.mem_map.1 hgm
        obtain ⟨u, hu, hs⟩ := key _ hs
        obtain ⟨f, hf, rfl⟩ := List.mem_map.1 hu
        exact fin ⟨_, List.mem_map_of_mem (f := fun f : Simplify.Field => f.ty) (List.mem_flatMap.2 ⟨v', hv', hf⟩), hs⟩

/-- What matters for a type is mentioned in it; the other direction fails, see `C82_fails_for_unused`. -/
theorem C82_matters_mentioned (D : Defs) (i : Nat) (t : Rt) (h : Matters D i t) : i ∈ paramsOf t := mentioned_of_matters h

/-- C82. The derived traits: if the functions compile, so do the derived implementations. -/
theorem C82_derives (files : Files) (o : BytesType) (hg : Compiles files o) (abs : List String) (k : Nat) (fs : List Rt)
    (hd : defsOf files o abs = some (k, fs)) : ∀ f ∈ fs, canDerive f = true := by
  have hg := compiles_iff.1 hg
  obtain ⟨it, hit, rfl, rfl⟩ := defs_some hg hd
  intro f hf
  obtain ⟨t, ht, rfl⟩ := List.mem_map.1 hf
  exact derive_ok o _ (.inl (goodField (hg abs it hit).2 ht).2)

/-- C82. If the functions compile, Rust knows all types that are written in the definitions, and named types have as many
arguments as parameters. -/
theorem C82_known (files : Files) (o : BytesType) (hg : Compiles files o) (abs : List String)
    (hs : (itemAt files abs).isSome = true) :
    ∃ k fs, defsOf files o abs = some (k, fs) ∧ ∀ f ∈ fs, Known (defsOf files o) f := by
  have hg := compiles_iff.1 hg
  obtain ⟨it, hit⟩ := Option.isSome_iff_exists.1 hs
  refine ⟨_, _, defs_eq hg hit, fun f hf => ?_⟩
  obtain ⟨t, ht, rfl⟩ := List.mem_map.1 hf
  exact known_ty hg t (goodField (hg abs it hit).2 ht).1

/-- C82 (partial: for projects without recursive types whose functions compile; the full claim, for all accepted projects, is
refuted below). Rust accepts the definitions of all types. -/
theorem C82_definitions_partial (order : Resolve.Order) (ho : Resolve.IsOrder order) (std : Std)
    (valid : Simplify.Schema → Bool) (checked : Bool) (inputs : List (String × Text)) (files : Files) (o : BytesType)
    (hn : (inputs.map (·.1)).Nodup) (h : compile order std valid checked inputs = ⟨.ok (), files⟩) (hg : Compiles files o)
    (hc : NoCycle (defsOf files o)) (abs : List String) (hs : (itemAt files abs).isSome = true) :
    ∃ k fs, defsOf files o abs = some (k, fs) ∧ Accepted (defsOf files o) abs k fs := by
  obtain ⟨k, fs, hd, _⟩ := C82_known files o hg abs hs
  refine ⟨k, fs, hd, sized_iff.2 (acc_names hc abs), fun i hi => ?_, C82_derives files o hg abs k fs hd⟩
  refine allMatter hc (fun a k fs f hD hf => ?_) (fun a k fs hD i hi => ?_) abs k fs hd i hi
  · obtain ⟨it, hit, _⟩ := defs_some (compiles_iff.1 hg) hD
    obtain ⟨k', fs', hd', hk⟩ := C82_known files o hg a (by rw [hit]; rfl)
    rw [hd', Option.some.injEq, Prod.mk.injEq] at hD
    exact hk f (hD.2 ▸ hf)
  · exact C82_mentioned order ho std valid checked inputs files o hn h hg a k fs hD i hi

/-- C82. With recursion, only sizes and uses of type parameters can go wrong, and sizes only without a vector, map or set in
the circle. -/
theorem C82_recursive_partial (files : Files) (o : BytesType) (hg : Compiles files o)
    (hc : NoDirectCycle (defsOf files o)) (abs : List String) (hs : (itemAt files abs).isSome = true) :
    ∃ k fs, defsOf files o abs = some (k, fs) ∧ HasSize (defsOf files o) (.named abs (params k)) ∧
      ((∀ i, i < k → ∃ f ∈ fs, Matters (defsOf files o) i f) → Accepted (defsOf files o) abs k fs) := by
  obtain ⟨k, fs, hd, _⟩ := C82_known files o hg abs hs
  have h := sized_iff (k := k).2 (acc_direct hc abs)
  exact ⟨k, fs, hd, h, fun hu => ⟨h, hu, C82_derives files o hg abs k fs hd⟩⟩

/-! ### Instances -/

/-- C82, generated code (partial: without recursion). For every type, Rust has to generate code for finitely many types. -/
theorem C82_instances_partial (D : Defs) (hc : NoCycle D) (t : Rt) : ∃ L : List Rt, ∀ u, Needs D t u → u ∈ L := by
  refine finite_needs ?_
  rw [← subst_nil t]
  exact fine_ty [] t (fun b _ _ => fine_of_acc (acc_names hc b)) fun i _ => acc_param i

/-- C82, generated code (partial: with recursion, but without type parameters). The same. -/
theorem C82_instances_plain_partial (D : Defs) (all : List (List String)) (ha : ∀ abs, (D abs).isSome = true → abs ∈ all)
    (hp : ∀ abs k fs f, D abs = some (k, fs) → f ∈ fs → paramsOf f = []) (t : Rt) :
    ∃ L : List Rt, ∀ u, Needs D t u → u ∈ L := by
  refine ⟨parts t ++ all.flatMap fun abs => match D abs with | some (_, fs) => fs.flatMap parts | none => [], fun u h => ?_⟩
  rw [List.mem_append]
  induction h with
  | self => exact .inl (parts_self t)
  | @step u v _ hi ih =>
    have hi' := hi
    cases hi with
    | @field abs args k fs f hD hf =>
      rw [subst_closed args f (hp abs k fs f hD hf)]
      refine .inr (List.mem_flatMap.2 ⟨abs, ha abs (by rw [hD]; rfl), ?_⟩)
      rw [hD]
      exact List.mem_flatMap.2 ⟨f, hf, parts_self f⟩
    | _ =>
      rcases ih with ih | ih
      · exact .inl (parts_inner ih hi' (by nofun))
      · obtain ⟨abs, hab, hm⟩ := List.mem_flatMap.1 ih
        refine .inr (List.mem_flatMap.2 ⟨abs, hab, ?_⟩)
        split at hm
        · next hD =>
          obtain ⟨f, hf, hm⟩ := List.mem_flatMap.1 hm
          exact List.mem_flatMap.2 ⟨f, hf, parts_inner hm hi' (by nofun)⟩
        · simp at hm

/-! ### Examples -/

/-- The files that are written for the file `a` with the given text. -/
def filesOf (text : String) : Files := (compile id C37_std (fun _ => true) true [("a", text.toList)]).written

/-- Is it accepted? -/
def accepts (text : String) : Bool := succeeds (compile id C37_std (fun _ => true) true [("a", text.toList)])

/-- The definitions that are written for it. -/
def defsFor (text : String) : Defs := defsOf (filesOf text) .vecU8

/-- A ranking by which all mentions go down. -/
def ranked (via : Rt → List (List String)) (files : Files) (o : BytesType) (rank : List String → Nat) : Bool :=
  (cratePaths files).all fun abs =>
    match defsOf files o abs with
    | some (_, fs) => fs.all fun f => (via f).all fun b => decide (rank b < rank abs)
    | none => true

theorem ranked_mem {via : Rt → List (List String)} {files : Files} {o : BytesType} {rank : List String → Nat}
    (h : ranked via files o rank = true) {abs : List String} {k : Nat} {fs : List Rt} {f : Rt} {b : List String}
    (hd : defsOf files o abs = some (k, fs)) (hf : f ∈ fs) (hb : b ∈ via f) : rank b < rank abs := by
  have hm : abs ∈ cratePaths files := by
    cases hit : itemAt files abs with
    | none => simp [defsOf, hit] at hd
    | some it => exact itemAt_paths hit
  have := List.all_eq_true.1 h abs hm
  simp only [hd, List.all_eq_true, decide_eq_true_eq] at this
  exact this f hf b hb

theorem noCycle_of {files : Files} {o : BytesType} (rank : List String → Nat) (h : ranked names files o rank = true) :
    NoCycle (defsOf files o) :=
  Subrelation.wf (r := InvImage (· < ·) rank) (fun {_ _} ⟨_, _, _, hd, hf, hb⟩ => ranked_mem h hd hf hb)
    (InvImage.wf _ Nat.lt_wfRel.wf)

theorem noDirectCycle_of {files : Files} {o : BytesType} (rank : List String → Nat) (h : ranked direct files o rank = true) :
    NoDirectCycle (defsOf files o) :=
  Subrelation.wf (r := InvImage (· < ·) rank) (fun {_ _} ⟨_, _, _, hd, hf, hb⟩ => ranked_mem h hd hf hb)
    (InvImage.wf _ Nat.lt_wfRel.wf)

/-- The hypotheses of `C82_definitions_partial` are met by the project of C47. -/
example (o : BytesType) : ∃ k fs, defsOf buildFiles o ["a", "S"] = some (k, fs) ∧ Accepted (defsOf buildFiles o) ["a", "S"] k fs :=
  C82_definitions_partial id isOrder_id C37_std (fun _ => true) true buildInputs buildFiles o (by decide) buildFiles_eq
    (buildFiles_good o) (noCycle_of (fun p => if p = ["a", "S"] then 2 else if p.length = 2 then 1 else 0)
      (by cases o <;> decide +kernel)) _ (by decide +kernel)

/-- Trees with inner nodes and leaves, in a vector, with a position by an optional tuple. -/
def treeText : String :=
  "struct Point(u32, u32)\nstruct S<T> { value: option<(T, Point)> @1, children: vec<S<T>> @2, index: hash_map<string, Part<S<T>>> @3 }\nenum Part<T> { Leaf @1, Inner(T, [Point; 4]) @2 }"

theorem treeText_accepted : accepts treeText = true := by decide +kernel

/-- What Rust reads for it. -/
theorem treeText_defs : defsFor treeText ["a", "S"] = some (1,
    [.builtin "Option" [.tuple [.param 0, .named ["a", "Point"] []]], .builtin "Vec" [.named ["a", "S"] [.param 0]],
      .builtin "HashMap" [base "String", .named ["a", "Part"] [.named ["a", "S"] [.param 0]]]]) := by decide +kernel

theorem treeText_good : Compiles (filesOf treeText) .vecU8 :=
  compiles_iff.2 (Rust.crateGood_iff.1 (by decide +kernel))

/-- The hypotheses of `C82_recursive_partial` are met by trees, which have definitions that Rust accepts. -/
theorem C82_trees : ∃ k fs, defsFor treeText ["a", "S"] = some (k, fs) ∧ Accepted (defsFor treeText) ["a", "S"] k fs := by
  obtain ⟨k, fs, h1, _, h3⟩ := C82_recursive_partial (filesOf treeText) .vecU8 treeText_good
    (noDirectCycle_of (fun p => if p.getLast? = some "Point" then 0 else if p.getLast? = some "Part" then 1 else 2)
      (by decide +kernel)) ["a", "S"] (by decide +kernel)
  refine ⟨k, fs, h1, h3 fun i hi => ?_⟩
  have e := treeText_defs
  rw [defsFor, h1, Option.some.injEq, Prod.mk.injEq] at e
  obtain ⟨rfl, rfl⟩ := e
  have : i = 0 := by omega
  subst this
  exact ⟨_, List.mem_cons_self, .arg List.mem_cons_self (.item List.mem_cons_self .here)⟩

/-- A check of all fields of the crate. -/
def everyField (p : Rt → Bool) (files : Files) (o : BytesType) : Bool :=
  (cratePaths files).all fun abs =>
    match defsOf files o abs with
    | some (_, fs) => fs.all p
    | none => true

theorem defs_paths {files : Files} {o : BytesType} {abs : List String} (h : (defsOf files o abs).isSome = true) :
    abs ∈ cratePaths files := by
  cases hit : itemAt files abs with
  | none => simp [defsOf, hit] at h
  | some it => exact itemAt_paths hit

theorem everyField_mem {p : Rt → Bool} {files : Files} {o : BytesType} (h : everyField p files o = true) {abs : List String}
    {k : Nat} {fs : List Rt} {f : Rt} (hd : defsOf files o abs = some (k, fs)) (hf : f ∈ fs) : p f = true := by
  have := List.all_eq_true.1 h abs (defs_paths (by rw [hd]; rfl))
  simp only [hd, List.all_eq_true] at this
  exact this f hf

/-- The hypothesis of `C82_size_exact`, and both sides of it: one project has a circle through a vector, the other has none. -/
example : NoDirectCycle (defsFor "struct S(vec<S>, P)\nstruct P(option<u8>, [bool; 3])") ∧
    (∀ abs k fs, defsFor "struct S(vec<S>, P)\nstruct P(option<u8>, [bool; 3])" abs = some (k, fs) →
      HasSize (defsFor "struct S(vec<S>, P)\nstruct P(option<u8>, [bool; 3])") (.named abs (params k))) := by
  have h := C82_size_exact (defsFor "struct S(vec<S>, P)\nstruct P(option<u8>, [bool; 3])") fun abs k fs f hd hf =>
    everyField_mem (p := plain) (by decide +kernel) hd hf
  have hd : NoDirectCycle (defsFor "struct S(vec<S>, P)\nstruct P(option<u8>, [bool; 3])") :=
    noDirectCycle_of (fun p => if p.getLast? = some "P" then 0 else 1) (by decide +kernel)
  exact ⟨hd, h.1 hd⟩

/-- The hypotheses of `C82_instances_plain_partial` are met by a recursive type. -/
example : ∃ L : List Rt, ∀ u, Needs (defsFor "struct S(vec<S>, P)\nstruct P(option<u8>, [bool; 3])") (.named ["a", "S"] []) u → u ∈ L :=
  C82_instances_plain_partial _ (cratePaths (filesOf "struct S(vec<S>, P)\nstruct P(option<u8>, [bool; 3])"))
    (fun _ h => defs_paths h) (fun abs k fs f hd hf => List.isEmpty_iff.1
      (everyField_mem (p := fun f => (paramsOf f).isEmpty) (by decide +kernel) hd hf)) _

/-- And those of `C82_instances_partial`. -/
example (t : Rt) : ∃ L : List Rt, ∀ u, Needs (defsOf buildFiles .vecU8) t u → u ∈ L :=
  C82_instances_partial _ (noCycle_of (fun p => if p = ["a", "S"] then 2 else if p.length = 2 then 1 else 0)
    (by decide +kernel)) t

/-! ### Where C82 fails -/

/-- Something that contains itself has no size. -/
theorem no_size_of_self {D : Defs} {t : Rt} (h : Relation.TransGen (Inside D inPlace) t t) : ¬ HasSize D t := by
  intro hs
  have := hs.transGen
  generalize ht : t = u at this
  have key : ∀ v, Acc (Relation.TransGen (Inside D inPlace)) v → v = t → False := fun v hv => by
    induction hv with
    | intro v _ ih => rintro rfl; exact ih _ h rfl
  exact key u this ht.symm

/-- Refutation of C82: lists with an optional next node, an array of the struct itself, two structs that contain each other,
and a struct that is stored by a parameter of another are accepted, and their functions are fine; but they would be infinitely
large. -/
theorem C82_fails_for_direct_recursion :
    (outcome .vecU8 "struct S { next: option<S> @1 }" = some (true, true, true) ∧
      ¬ HasSize (defsFor "struct S { next: option<S> @1 }") (.named ["a", "S"] (params 0))) ∧
    (outcome .vecU8 "struct S([S; 2])" = some (true, true, true) ∧
      ¬ HasSize (defsFor "struct S([S; 2])") (.named ["a", "S"] (params 0))) ∧
    (outcome .vecU8 "struct S(P)\nstruct P(vec<u8>, (S, u8))" = some (true, true, true) ∧
      ¬ HasSize (defsFor "struct S(P)\nstruct P(vec<u8>, (S, u8))") (.named ["a", "S"] (params 0))) ∧
    (outcome .vecU8 "struct S(P<S>)\nenum P<T> { A @1, B(T) @2 }" = some (true, true, true) ∧
      ¬ HasSize (defsFor "struct S(P<S>)\nenum P<T> { A @1, B(T) @2 }") (.named ["a", "S"] (params 0))) := by
  refine ⟨⟨by decide +kernel, no_size_of_self ?_⟩, ⟨by decide +kernel, no_size_of_self ?_⟩, ⟨by decide +kernel, no_size_of_self ?_⟩,
    ⟨by decide +kernel, no_size_of_self ?_⟩⟩
  · have h : defsFor "struct S { next: option<S> @1 }" ["a", "S"] = some (0, [.builtin "Option" [.named ["a", "S"] []]]) := by
      decide +kernel
    exact .tail (.single (.arg (.inl rfl) List.mem_cons_self)) (.field (args := []) h List.mem_cons_self)
  · have h : defsFor "struct S([S; 2])" ["a", "S"] = some (0, [.array (.named ["a", "S"] []) 2]) := by decide +kernel
    exact .tail (.single .element) (.field (args := []) h List.mem_cons_self)
  · have h : defsFor "struct S(P)\nstruct P(vec<u8>, (S, u8))" ["a", "S"] = some (0, [.named ["a", "P"] []]) := by decide +kernel
    have h' : defsFor "struct S(P)\nstruct P(vec<u8>, (S, u8))" ["a", "P"] =
        some (0, [.builtin "Vec" [base "u8"], .tuple [.named ["a", "S"] [], base "u8"]]) := by decide +kernel
    exact .tail (.tail (.single (.item List.mem_cons_self)) (.field (args := []) h' (List.mem_cons_of_mem _ List.mem_cons_self)))
      (.field (args := []) h List.mem_cons_self)
  · have h : defsFor "struct S(P<S>)\nenum P<T> { A @1, B(T) @2 }" ["a", "S"] =
        some (0, [.named ["a", "P"] [.named ["a", "S"] []]]) := by decide +kernel
    have h' : defsFor "struct S(P<S>)\nenum P<T> { A @1, B(T) @2 }" ["a", "P"] = some (1, [.param 0]) := by decide +kernel
    exact .tail (.single (.field (args := [.named ["a", "S"] []]) h' List.mem_cons_self))
      (.field (args := []) h List.mem_cons_self)

/-- A parameter that is only mentioned in arguments of its own type. -/
theorem only_itself {D : Defs} {abs : List String} {k : Nat}
    (h : D abs = some (k, [.builtin "Vec" [.named abs [.param 0]]])) {i : Nat} {t : Rt} (hm : Matters D i t) :
    t ≠ .builtin "Vec" [.named abs [.param 0]] ∧ t ≠ .named abs [.param 0] := by
  induction hm with
  | here | element _ _ | slice _ _ | item _ _ _ => exact ⟨nofun, nofun⟩
  | arg ht _ ih =>
    refine ⟨fun e => ?_, nofun⟩
    injection e with _ e
    subst e
    exact ih.2 (List.mem_singleton.1 ht)
  | named hD hf _ _ _ ih _ =>
    refine ⟨nofun, fun e => ?_⟩
    injection e with e e'
    subst e
    rw [h, Option.some.injEq, Prod.mk.injEq] at hD
    rw [← hD.2] at hf
    exact ih.1 (List.mem_singleton.1 hf)

/-- Refutation of C82: a type parameter that is mentioned only where the type mentions itself is accepted (the validator only
looks for a mention), but Rust calls it unused. -/
theorem C82_fails_for_unused :
    outcome .vecU8 "struct S<T>(vec<S<T>>)" = some (true, true, true) ∧
    ∃ fs, defsFor "struct S<T>(vec<S<T>>)" ["a", "S"] = some (1, fs) ∧
      ¬ ∃ f ∈ fs, Matters (defsFor "struct S<T>(vec<S<T>>)") 0 f := by
  have h : defsFor "struct S<T>(vec<S<T>>)" ["a", "S"] = some (1, [.builtin "Vec" [.named ["a", "S"] [.param 0]]]) := by
    decide +kernel
  refine ⟨by decide +kernel, _, h, fun ⟨f, hf, hm⟩ => ?_⟩
  exact (only_itself h hm).1 (List.mem_singleton.1 hf)

/-- Refutation of C82: keys without `Eq` and `Hash` are accepted, but then `PartialEq` cannot be derived. -/
theorem C82_fails_for_keys :
    accepts "struct S(hash_set<f32>)" = true ∧ everyField canDerive (filesOf "struct S(hash_set<f32>)") .vecU8 = false ∧
    accepts "struct K(u8)\nstruct S(vec<hash_map<K, u8>>)" = true ∧
    everyField canDerive (filesOf "struct K(u8)\nstruct S(vec<hash_map<K, u8>>)") .vecU8 = false ∧
    accepts "struct S<T>(hash_set<T>)" = true ∧
    everyField canDerive (filesOf "struct S<T>(hash_set<T>)") .vecU8 = false := by
  refine ⟨?_, ?_, ?_, ?_, ?_, ?_⟩ <;> decide +kernel

/-- The last tokens of an item, behind the attributes in front of it. -/
def aliasTokens (i : Rust.Item) : List String := i.tokens.dropWhile (· ≠ "pub")

/-- Refutation of C82: the type parameters of aliases need not be mentioned at all, and Rust rejects (E0091) the alias that is
emitted, `pub type A<T,> = u8;`. -/
theorem C82_fails_for_aliases :
    accepts "type A<T> = u8;" = true ∧
    (filesOf "type A<T> = u8;").map (fun f => (Rust.compileSchema .vecU8 f.2).map fun items => (items.drop 1).map aliasTokens) =
      [some [["pub", "type", "A", "<", "T", ",", ">", "=", "u8", ";"]]] := by
  constructor <;> decide +kernel

/-- Vectors of vectors of `u8`. -/
def nest : Nat → Rt
  | 0 => base "u8"
  | n + 1 => .builtin "Vec" [nest n]

theorem nest_inj : ∀ n m, nest n = nest m → n = m
  | 0, 0, _ => rfl
  | 0, m + 1, h => by
    injection h with h
    exact absurd h (by decide)
  | n + 1, 0, h => by
    injection h with h
    exact absurd h (by decide)
  | n + 1, m + 1, h => by
    injection h with _ h
    injection h with h
    rw [nest_inj n m h]

/-- Refutation of C82: a type that mentions itself with a larger argument is accepted, and Rust accepts definition and functions,
but can never finish to generate code for it, for any type argument. -/
theorem C82_fails_for_growing_arguments :
    outcome .vecU8 "struct S<T>(T, vec<S<vec<T>>>)" = some (true, true, true) ∧
    (∃ k fs, defsFor "struct S<T>(T, vec<S<vec<T>>>)" ["a", "S"] = some (k, fs) ∧
      Accepted (defsFor "struct S<T>(T, vec<S<vec<T>>>)") ["a", "S"] k fs) ∧
    ¬ ∃ L : List Rt, ∀ u, Needs (defsFor "struct S<T>(T, vec<S<vec<T>>>)") (.named ["a", "S"] [base "u8"]) u → u ∈ L := by
  have h : defsFor "struct S<T>(T, vec<S<vec<T>>>)" ["a", "S"] =
      some (1, [.param 0, .builtin "Vec" [.named ["a", "S"] [.builtin "Vec" [.param 0]]]]) := by decide +kernel
  refine ⟨by decide +kernel, ?_, fun ⟨L, hL⟩ => ?_⟩
  · have hg : Compiles (filesOf "struct S<T>(T, vec<S<vec<T>>>)") .vecU8 :=
      compiles_iff.2 (Rust.crateGood_iff.1 (by decide +kernel))
    obtain ⟨k, fs, h1, _, h3⟩ := C82_recursive_partial _ .vecU8 hg (noDirectCycle_of (fun _ => 0) (by decide +kernel)) ["a", "S"]
      (by decide +kernel)
    refine ⟨k, fs, h1, h3 fun i hi => ?_⟩
    have e := h
    rw [defsFor, h1, Option.some.injEq, Prod.mk.injEq] at e
    obtain ⟨rfl, rfl⟩ := e
    have : i = 0 := by omega
    subst this
    exact ⟨_, List.mem_cons_self, .here⟩
  · have step : ∀ n, Needs (defsFor "struct S<T>(T, vec<S<vec<T>>>)") (.named ["a", "S"] [base "u8"])
        (.named ["a", "S"] [nest n]) := fun n => by
      induction n with
      | zero => exact .self
      | succ n ih =>
        have h1 := Inside.field (stores := fun _ => True) (args := [nest n]) h (List.mem_cons_of_mem _ List.mem_cons_self)
        exact .step (.step ih h1) (.arg trivial List.mem_cons_self)
    have bound : ∀ L : List Rt, ∃ N, ∀ n, Rt.named ["a", "S"] [nest n] ∈ L → n < N := fun L => by
      induction L with
      | nil => exact ⟨0, nofun⟩
      | cons u L ih =>
        obtain ⟨N, hN⟩ := ih
        by_cases hu : ∃ m, u = Rt.named ["a", "S"] [nest m]
        · obtain ⟨m, rfl⟩ := hu
          refine ⟨N + m + 1, fun n hn => ?_⟩
          rcases List.mem_cons.1 hn with e | hn
          · injection e with _ e
            injection e with e
            have := nest_inj n m e
            omega
          · have := hN n hn
            omega
        · refine ⟨N, fun n hn => ?_⟩
          rcases List.mem_cons.1 hn with e | hn
          · exact absurd ⟨n, e.symm⟩ hu
          · exact hN n hn
    obtain ⟨N, hN⟩ := bound L
    exact Nat.lt_irrefl N (hN N (hL _ (step N)))

end Mabo.Props
