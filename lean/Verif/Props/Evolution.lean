import Verif.ViewLemmas
import Verif.Props.RoundTrip
/-!
C12 (skipping), C15 (forward compatibility), C16 (missing fields), C17 (field order), C18 (repeated fields),
C19 (enum variants): what generated decoders do with struct and enum payloads.

Vocabulary: `payload m` — the encoded fields `m` one after the other and the end marker; `Understood dec fs w v`
— the encoded field `w` is a known field decoding to `v`, or an unknown one its marker allows to skip;
`lastVal m id` — the value of the last encoded field numbered `id` (all in `Spec/Wire.lean`).
-/
namespace Mabo.Props
open Mabo.Buf Mabo.Varint Mabo.Schema Mabo.Codegen Mabo.Spec

/-! ### C12 -/

/-- C12 (partial: the full claim, for all field types, is refuted below): for every field type whose marker
tells the truth (`skippable`: everything but named types, generic parameters used with a type that has no
length prefix, and options inside options) and every value whose collection announces its exact length,
skipping by the marker alone consumes exactly the field's bytes. -/
theorem C12_skip_partial (env : Env) (t : Ty) (ht : skippable t = true) (v : Val) (hw : wt env t v = true)
    (hd : declaredExact env t v = true) (hl : (enc env true t v).length < 2 ^ 64) (s : Bytes) :
    decSkip (marker t) (enc env true t v ++ s) = .ok () s :=
  skip_field ht hw hd hl s

/-- C12 for leaf types, their non-zero forms included (partial as above): no condition on the value. -/
theorem C12_skip_leaf_partial (env : Env) (p : Prim) (v : Val) (hw : wt env (.prim p) v = true)
    (hl : (enc env true (.prim p) v).length < 2 ^ 64) (s : Bytes) :
    decSkip (marker (.prim p)) (enc env true (.prim p) v ++ s) = .ok () s :=
  skip_field rfl hw (by simp [declaredExact, Ty.strip]) hl s

/-- C12 for `vec`, `hash_set` and arrays of plain elements (partial as above): the condition on the value is
met by all values. -/
theorem C12_skip_shallow_partial (env : Env) (hE : EnvOk env) (S : List String → Bool) (hS : PlainEnv env S)
    (t : Ty) (ht : elemTy env S t = true) (n : Nat) (c : Ty) (hc : c = .vec t ∨ c = .hashSet t ∨ c = .array t n)
    (v : Val) (hw : wt env c v = true) (hl : (enc env true c v).length < 2 ^ 64) (s : Bytes) :
    decSkip (marker c) (enc env true c v ++ s) = .ok () s := by
  refine skip_field (by rcases hc with rfl | rfl | rfl <;> rfl) hw ?_ hl s
  rcases hc with rfl | rfl | rfl <;> cases v with
  | list xs =>
    rw [wt.eq_def] at hw
    simp only [Ty.strip, Bool.and_eq_true] at hw
    rw [enc.eq_def] at hl
    simp only [Ty.strip, List.length_append] at hl
    simp only [declaredExact, Ty.strip, decide_eq_true_eq]
    first
      | exact C14_announced_size_exact_partial env hE S hS t ht xs hw.2 (by omega)
      | exact C14_announced_size_exact_partial env hE S hS t ht xs hw.2.1 (by omega)
      | exact C14_announced_size_exact_partial env hE S hS t ht xs hw.2.2 (by omega)
  | _ => simp [declaredExact, Ty.strip]

example : skippable (.tuple [.prim .u16, .prim .string]) = true ∧
    wt Demo.env (.tuple [.prim .u16, .prim .string]) (.list [.num 300, .str "abc"]) = true ∧
    declaredExact Demo.env (.tuple [.prim .u16, .prim .string]) (.list [.num 300, .str "abc"]) = true := by
  decide +kernel
example : skippable (.nonZero (.hashMap (.prim .string) (.ext ["Address"] []))) = true ∧
    declaredExact Demo.env (.nonZero (.hashMap (.prim .string) (.ext ["Address"] [])))
      (.list [.pair (.str "x") Demo.addressV]) = true := by
  decide +kernel

/-- Refutation of the full C12: a field holding a struct cannot be skipped. The field of type `Inner`
(`struct Inner { a: u8 @1 }`, value `{ a: 7 }`) is written as `0a 07 00` behind a length-prefixed marker, and
skipping it fails. -/
theorem C12_fails_for_structs :
    let env := Demo.envOf [(["Inner"], .struct ⟨.named, [⟨"a", .prim .u8, 1⟩]⟩)]
    wt env (.ext ["Inner"] []) (.struct [.num 7]) = true ∧
    enc env true (.ext ["Inner"] []) (.struct [.num 7]) = [0x0a, 7, 0] ∧
    marker (.ext ["Inner"] []) = .lengthPrefixed ∧
    decSkip (marker (.ext ["Inner"] [])) (enc env true (.ext ["Inner"] []) (.struct [.num 7])) =
      .err .insufficientData := by
  decide +kernel

/-- … for an option inside an option (value `Some(Some(300))` of an `option<option<u16>>` field) the skip
succeeds, but stops in the middle of the value. -/
theorem C12_fails_for_nested_options (env : Env) (s : Bytes) :
    wt env (.option (.prim .u16)) (.some (.num 300)) = true ∧
    decSkip (marker (.option (.prim .u16))) (enc env true (.option (.prim .u16)) (.some (.num 300)) ++ s) =
      .ok () (2 :: s) := by
  have h : enc env true (.option (.prim .u16)) (.some (.num 300)) = [1, 0xac, 2] := by
    rw [enc.eq_def]; simp only [Ty.strip]; rw [enc.eq_def]; simp only [Ty.strip]; decide +kernel
  refine ⟨?_, ?_⟩
  · rw [wt.eq_def]; simp only [Ty.strip]; rw [wt.eq_def]; simp only [Ty.strip]; decide +kernel
  · rw [h]
    simp only [marker, decSkip, decPrefixed, List.cons_append, List.nil_append]
    have h1 : encodeU (1#64) = [1] := by decide +kernel
    have := decUint_enc (w := 64) (by omega) 1#64 (0xac :: 2 :: s)
    rw [h1] at this
    simp only [List.cons_append, List.nil_append] at this
    rw [this]
    simp only [Res.bind_ok]
    rw [if_neg (by simp)]
    rfl

/-- … and for a generic parameter: the field `value: T` of `Box<u8>` holding 200 is written as the single byte
200 behind a length-prefixed marker. -/
theorem C12_fails_for_generic_parameters (env : Env) :
    marker (.inst (.prim .u8)) = .lengthPrefixed ∧ enc env true (.inst (.prim .u8)) (.num 200) = [200] ∧
    decSkip (marker (.inst (.prim .u8))) (enc env true (.inst (.prim .u8)) (.num 200)) = .err .decodeInt := by
  have h : enc env true (.inst (.prim .u8)) (.num 200) = [200] := by
    rw [enc.eq_def]; simp only [Ty.strip]; decide +kernel
  refine ⟨rfl, h, ?_⟩
  rw [h]; decide +kernel

/-! ### payloads of structs -/

/-- Decoding a struct is decoding its fields. -/
theorem decodeExt_struct {env : Env} {name : List String} {args : List Ty} {fs : Fields}
    (hn : env name = some (.struct fs)) (r : Bytes) :
    decodeExt env name args r = (decFields (decode env true) (fs.subst args) r).map .struct := by
  rw [decodeExt_eq, hn]; rfl

/-- The fields a struct decodes to, or the error, from a payload of understood fields. -/
theorem decodeExt_payload {env : Env} {name : List String} (args : List Ty) {fs : Fields}
    (hn : env name = some (.struct fs)) (hk : fs.kind ≠ .unit) (hnd : (fs.fields.map (·.id)).Nodup)
    (m : List (WireField × Val)) (hu : ∀ e ∈ m, Understood (decode env true) (fs.subst args).fields e.1 e.2)
    (s : Bytes) :
    decodeExt env name args (payload (m.map (·.1)) ++ s) =
      match assemble (fs.kind == .named) (lastVal m) (fs.subst args).fields with
      | .ok vs => .ok (.struct vs) s
      | .error e => .err e := by
  rw [decodeExt_struct hn, decFields_payload (decode_locals env) (fs.subst args) hk (by rw [subst_ids]; exact hnd) m hu]
  show Res.map _ (match assemble (fs.kind == .named) _ _ with | .ok vs => _ | .error e => _) = _
  cases assemble (fs.kind == .named) (lastVal m) (fs.subst args).fields <;> rfl

theorem isOption_subst (args : List Ty) (t : Ty) : isOption (t.subst args) = isOption t := by
  cases t with
  | param i => simp only [Ty.subst]; cases args[i]? <;> rfl
  | _ => rfl

/-- What becomes of a field given what was found on the wire: an option is `None` or `Some`, a required field
has its value. -/
def fieldResult (optional : Bool) : Option Val → Option Val
  | some v => some (if optional then .some v else v)
  | none => if optional then some .none else none

/-- `assemble`, field by field. -/
theorem assemble_ok {named : Bool} {look : BitVec 32 → Option Val} {fs : List Field} {vs : List Val} :
    assemble named look fs = .ok vs ↔
      vs.map some = fs.map fun f => fieldResult (isOption f.ty) (look f.id) := by
  induction fs generalizing vs with
  | nil =>
    simp only [assemble, Except.ok.injEq, List.map_nil, List.map_eq_nil_iff]
    exact ⟨fun h => h.symm, fun h => h.symm⟩
  | cons f fs ih =>
    have key : ∀ (x : Val), (assemble named look fs).map (x :: ·) = .ok vs ↔
        vs.map some = some x :: fs.map fun f => fieldResult (isOption f.ty) (look f.id) := by
      intro x
      cases vs with
      | nil =>
        cases h : assemble named look fs <;> simp [Except.map]
      | cons v vs =>
        simp only [List.map_cons, List.cons.injEq, Option.some.injEq]
        rw [← ih]
        cases h : assemble named look fs with
        | ok ws => simp only [Except.map, Except.ok.injEq, List.cons.injEq]; exact and_congr_left' eq_comm
        | error e => simp [Except.map]
    rw [List.map_cons]
    cases hl : look f.id with
    | some v =>
      cases hty : f.ty <;> simp only [assemble, hl, hty, isOption, fieldResult, if_true, Bool.false_eq_true, if_false] <;> exact key _
    | none =>
      cases hty : f.ty <;> simp only [assemble, hl, hty, isOption, fieldResult, if_true, Bool.false_eq_true, if_false] <;>
        first
          | exact key _
          | (cases vs <;> simp)

theorem assemble_error {named : Bool} {look : BitVec 32 → Option Val} {pre post : List Field} {f : Field}
    (hpre : ∀ g ∈ pre, isOption g.ty = true ∨ (look g.id).isSome) (hf : isOption f.ty = false)
    (habs : look f.id = none) :
    assemble named look (pre ++ f :: post) = .error (.missingField f.id.toNat (if named then some f.name else none)) := by
  induction pre with
  | nil =>
    simp only [List.nil_append, assemble, habs]
    cases hty : f.ty <;> rw [hty] at hf <;> simp only [isOption, Bool.true_eq_false] at hf <;> rfl
  | cons g pre ih =>
    rw [List.cons_append, assemble, ih (fun x hx => hpre x (List.mem_cons_of_mem _ hx))]
    cases hl : look g.id with
    | some v => cases hty : g.ty <;> rfl
    | none =>
      rcases hpre g (List.mem_cons_self ..) with h | h
      · cases hty : g.ty <;> rw [hty] at h <;> simp only [isOption, Bool.false_eq_true] at h
        rfl
      · rw [hl] at h; simp at h

theorem lastVal_isSome {m : List (WireField × Val)} {id : BitVec 32} :
    (lastVal m id).isSome ↔ ∃ e ∈ m, e.1.id.value = id := by
  constructor
  · intro h
    refine Classical.byContradiction fun hc => ?_
    rw [lastVal_none (fun e he heq => hc ⟨e, he, heq⟩)] at h
    simp at h
  · rintro ⟨e, he, heq⟩
    simp only [lastVal, Option.isSome_map]
    cases hq : (m.filter fun e => e.1.id.value == id).getLast? with
    | some x => rfl
    | none =>
      rw [List.getLast?_eq_none_iff, List.filter_eq_nil_iff] at hq
      exact absurd (by simpa using heq) (hq e he)

/-! ### C16 -/

/-- C16, missing required field: if `f` is a required field that does not occur in the payload, and every field
declared before it is optional or occurs, decoding fails with `MissingField` for `f` — its number, and its
name if the fields are named. Holds for every payload of understood fields, whatever follows. -/
theorem C16_missing_required (env : Env) (name : List String) (args : List Ty) (fs : Fields)
    (hn : env name = some (.struct fs)) (hk : fs.kind ≠ .unit) (hnd : (fs.fields.map (·.id)).Nodup)
    (m : List (WireField × Val)) (hu : ∀ e ∈ m, Understood (decode env true) (fs.subst args).fields e.1 e.2)
    (pre post : List Field) (f : Field) (hsplit : fs.fields = pre ++ f :: post)
    (hpre : ∀ g ∈ pre, isOption g.ty = true ∨ ∃ e ∈ m, e.1.id.value = g.id)
    (hf : isOption f.ty = false) (habs : ∀ e ∈ m, e.1.id.value ≠ f.id) (s : Bytes) :
    decodeExt env name args (payload (m.map (·.1)) ++ s) =
      .err (.missingField f.id.toNat (if fs.kind = .named then some f.name else none)) := by
  rw [decodeExt_payload args hn hk hnd m hu]
  have hs : (fs.subst args).fields = pre.map (fun f => { f with ty := f.ty.subst args }) ++
      { f with ty := f.ty.subst args } :: post.map (fun f => { f with ty := f.ty.subst args }) := by
    simp [Fields.subst, hsplit]
  rw [hs, assemble_error]
  · cases hkind : fs.kind <;> simp
  · intro g hg
    obtain ⟨g', hg', rfl⟩ := List.mem_map.1 hg
    rcases hpre g' hg' with h | h
    · exact .inl (by rw [isOption_subst]; exact h)
    · exact .inr (lastVal_isSome.2 h)
  · rw [isOption_subst]; exact hf
  · exact lastVal_none habs

/-- C16, nothing required is missing: decoding succeeds exactly when every required field occurs in the
payload, and then each option that does not occur is `None`, each one that occurs is `Some` and each required
field has its (last) value. -/
theorem C16_absent_options (env : Env) (name : List String) (args : List Ty) (fs : Fields)
    (hn : env name = some (.struct fs)) (hk : fs.kind ≠ .unit) (hnd : (fs.fields.map (·.id)).Nodup)
    (m : List (WireField × Val)) (hu : ∀ e ∈ m, Understood (decode env true) (fs.subst args).fields e.1 e.2)
    (hreq : ∀ f ∈ fs.fields, isOption f.ty = true ∨ ∃ e ∈ m, e.1.id.value = f.id) (s : Bytes) :
    ∃ vs, decodeExt env name args (payload (m.map (·.1)) ++ s) = .ok (.struct vs) s ∧
      vs.map some = fs.fields.map fun f => fieldResult (isOption f.ty) (lastVal m f.id) := by
  rw [decodeExt_payload args hn hk hnd m hu]
  have : ∃ vs : List Val, vs.map some =
      (fs.subst args).fields.map fun f => fieldResult (isOption f.ty) (lastVal m f.id) := by
    have hr : ∀ f ∈ (fs.subst args).fields, (fieldResult (isOption f.ty) (lastVal m f.id)).isSome := by
      intro f hf
      obtain ⟨g, hg, rfl⟩ := List.mem_map.1 (by simpa [Fields.subst] using hf)
      rcases hreq g hg with h | h
      · simp only [isOption_subst, h]
        cases lastVal m g.id <;> rfl
      · have := lastVal_isSome.2 h
        cases hl : lastVal m g.id with
        | none => rw [hl] at this; simp at this
        | some v => rfl
    generalize (fs.subst args).fields = l at hr
    induction l with
    | nil => exact ⟨[], rfl⟩
    | cons f l ih =>
      obtain ⟨vs, hvs⟩ := ih fun g hg => hr g (List.mem_cons_of_mem _ hg)
      obtain ⟨v, hv⟩ := Option.isSome_iff_exists.1 (hr f (List.mem_cons_self ..))
      exact ⟨v :: vs, by rw [List.map_cons, List.map_cons, hv, hvs]⟩
  obtain ⟨vs, hvs⟩ := this
  refine ⟨vs, by rw [assemble_ok.2 hvs], ?_⟩
  rw [hvs]
  simp [Fields.subst, Function.comp_def, isOption_subst]

/-- `Address` (`street: string @1, no: option<u16> @2`) from an empty payload, and from a payload with only the
street and an unknown field 9. -/
theorem C16_example (s : Bytes) :
    decodeExt Demo.env ["Address"] [] (payload [] ++ s) = .err (.missingField 1 (some "street")) ∧
    decodeExt Demo.env ["Address"] []
      (payload [⟨⟨9, .fixed1⟩, [7]⟩, ⟨⟨1, .lengthPrefixed⟩, [2, 104, 105]⟩] ++ s) = .ok (.struct [.str "hi", .none]) s := by
  have hn : Demo.env ["Address"] = some (.struct Demo.address) := rfl
  refine ⟨C16_missing_required Demo.env ["Address"] [] Demo.address hn (by decide) (by decide +kernel) []
    (by simp) [] _ _ rfl (by simp) rfl (by simp) s, ?_⟩
  have hu : ∀ e ∈ ([(⟨⟨9, .fixed1⟩, [7]⟩, .none), (⟨⟨1, .lengthPrefixed⟩, [2, 104, 105]⟩, .str "hi")] : List (WireField × Val)),
      Understood (decode Demo.env true) (Demo.address.subst []).fields e.1 e.2 := by
    intro e he
    simp only [List.mem_cons, List.not_mem_nil, or_false] at he
    rcases he with rfl | rfl
    · refine ⟨by decide +kernel, .inr ⟨by decide +kernel, fun s => ?_⟩⟩
      simp [decSkip, skipFixed]
    · refine ⟨by decide +kernel, .inl ⟨⟨"street", .prim .string, 1⟩, by simp [Demo.address, Fields.subst, Ty.subst], rfl, fun s => ?_⟩⟩
      have := (C07_string_roundtrip "hi" s (by decide +kernel))
      have he : encString "hi" = [2, 104, 105] := by decide +kernel
      rw [he] at this
      simp only [decode, fieldTy, decTy, Prim.rep, decRep]
      rw [this.1]
      rfl
  obtain ⟨vs, h, hv⟩ := C16_absent_options Demo.env ["Address"] [] Demo.address hn (by decide) (by decide +kernel) _ hu
    (by intro f hf
        simp only [Demo.address, List.mem_cons, List.not_mem_nil, or_false] at hf
        rcases hf with rfl | rfl
        · exact .inr ⟨_, by simp; right; rfl, rfl⟩
        · exact .inl rfl) s
  simp only [List.map_cons, List.map_nil] at h
  rw [h]
  have hvs : vs.map some = [some (.str "hi"), some .none] := by
    rw [hv]; decide +kernel
  match vs, hvs with
  | [a, b], hvs =>
    simp only [List.map_cons, List.map_nil, List.cons.injEq, Option.some.injEq, and_true] at hvs
    rw [hvs.1, hvs.2]

/-! ### C17, C18 -/

/-- Two payloads of understood fields whose last values agree decode alike. -/
theorem payloads_agree {env : Env} {name : List String} (args : List Ty) {fs : Fields}
    (hn : env name = some (.struct fs)) (hk : fs.kind ≠ .unit) (hnd : (fs.fields.map (·.id)).Nodup)
    {m m' : List (WireField × Val)} (hu : ∀ e ∈ m, Understood (decode env true) (fs.subst args).fields e.1 e.2)
    (hu' : ∀ e ∈ m', Understood (decode env true) (fs.subst args).fields e.1 e.2)
    (h : ∀ f ∈ fs.fields, lastVal m f.id = lastVal m' f.id) (s : Bytes) :
    decodeExt env name args (payload (m.map (·.1)) ++ s) = decodeExt env name args (payload (m'.map (·.1)) ++ s) := by
  rw [decodeExt_payload args hn hk hnd m hu, decodeExt_payload args hn hk hnd m' hu']
  have : assemble (fs.kind == .named) (lastVal m) (fs.subst args).fields =
      assemble (fs.kind == .named) (lastVal m') (fs.subst args).fields := by
    apply assemble_congr
    intro f hf
    obtain ⟨g, hg, rfl⟩ := List.mem_map.1 (by simpa [Fields.subst] using hf)
    exact h g hg
  rw [this]

/-- C17: the decoded result (value or error) is the same for every permutation of the encoded fields of a
payload, provided no field number occurs twice. -/
theorem C17_order_irrelevant (env : Env) (name : List String) (args : List Ty) (fs : Fields)
    (hn : env name = some (.struct fs)) (hk : fs.kind ≠ .unit) (hnd : (fs.fields.map (·.id)).Nodup)
    (m m' : List (WireField × Val)) (hp : m.Perm m') (hids : (m.map fun e => e.1.id.value).Nodup)
    (hu : ∀ e ∈ m, Understood (decode env true) (fs.subst args).fields e.1 e.2) (s : Bytes) :
    decodeExt env name args (payload (m.map (·.1)) ++ s) = decodeExt env name args (payload (m'.map (·.1)) ++ s) := by
  refine payloads_agree args hn hk hnd hu (fun e he => hu e (hp.mem_iff.2 he)) (fun f _ => ?_) s
  have hfil := hp.filter (fun e => e.1.id.value == f.id)
  have hlen : (m.filter (fun e => e.1.id.value == f.id)).length ≤ 1 := by
    refine Classical.byContradiction fun hc => ?_
    have hsub : ((m.filter (fun e => e.1.id.value == f.id)).map fun e => e.1.id.value).Nodup :=
      (List.Sublist.map _ List.filter_sublist).nodup hids
    match hq : m.filter (fun e => e.1.id.value == f.id) with
    | [] => rw [hq] at hc; simp at hc
    | [_] => rw [hq] at hc; simp at hc
    | a :: b :: l =>
      have ha : a ∈ m.filter (fun e => e.1.id.value == f.id) := by rw [hq]; simp
      have hb : b ∈ m.filter (fun e => e.1.id.value == f.id) := by rw [hq]; simp
      rw [List.mem_filter] at ha hb
      rw [hq] at hsub
      simp only [List.map_cons, List.nodup_cons, List.mem_cons, not_or] at hsub
      have h1 : a.1.id.value = f.id := by simpa using ha.2
      have h2 : b.1.id.value = f.id := by simpa using hb.2
      exact hsub.1.1 (h1.trans h2.symm)
  have : m.filter (fun e => e.1.id.value == f.id) = m'.filter (fun e => e.1.id.value == f.id) := by
    match hq : m.filter (fun e => e.1.id.value == f.id), hlen with
    | [], _ => rw [hq] at hfil; exact hq.trans (List.nil_perm.1 hfil).symm
    | [a], _ => rw [hq] at hfil; exact hq.trans (List.singleton_perm.1 hfil)
    | a :: b :: l, _ => rw [hq] at hlen; simp at hlen
  rw [lastVal, lastVal, this]

/-- The bytes written for a struct value are the payload of its encoded fields (`chunks`: one per required
field and per `Some` option, in declaration order). -/
theorem enc_is_payload (env : Env) (name : List String) (args : List Ty) (fs : Fields)
    (hn : env name = some (.struct fs)) (hk : fs.kind ≠ .unit) (vs : List Val) :
    enc env false (.ext name args) (.struct vs) = payload ((chunks env (fs.subst args).fields vs).map (·.1)) := by
  rw [enc.eq_def]
  simp only [Ty.strip, hn, if_neg hk, encFields_eq, endMarker_enc, payload]

/-- The encoded fields of a well-typed value are understood by its own decoder. -/
theorem chunks_understood {env : Env} (hE : EnvOk env) {name : List String} {args : List Ty} {fs : Fields}
    (hn : env name = some (.struct fs)) (hk : fs.kind ≠ .unit) {vs : List Val}
    (hw : wt env (.ext name args) (.struct vs) = true) (hf : faithful env (.ext name args) (.struct vs) = true)
    (hl : (enc env false (.ext name args) (.struct vs)).length < 2 ^ 64) :
    ∀ e ∈ chunks env (fs.subst args).fields vs, Understood (decode env true) (fs.subst args).fields e.1 e.2 := by
  have hok := subst_idOk (args := args) (show FieldsOk fs.fields from hE name _ hn)
  rw [wt.eq_def] at hw
  simp only [Ty.strip, hn, Bool.and_eq_true] at hw
  rw [faithful.eq_def] at hf
  simp only [Ty.strip, hn] at hf
  rw [enc.eq_def] at hl
  simp only [Ty.strip, hn, if_neg hk, List.length_append] at hl
  intro e he
  obtain ⟨f, hfm, hid, hd⟩ := (rtLists hE vs).2.2.2 _ hw.2.2 hf (by omega) e he
  exact ⟨hid ▸ hok.2 f hfm, .inl ⟨f, hfm, hid, hd⟩⟩

theorem chunks_ids_sublist (env : Env) (fs : List Field) (vs : List Val) :
    ((chunks env fs vs).map fun e => e.1.id.value).Sublist (fs.map (·.id)) := by
  induction fs generalizing vs with
  | nil => cases vs <;> simp [chunks]
  | cons f fs ih =>
    cases vs with
    | nil => simp [chunks]
    | cons v vs =>
      simp only [chunks, List.map_append, List.map_cons]
      rcases chunk_cases env f v with ⟨t, -, ⟨x, -, h⟩ | ⟨-, h⟩⟩ | ⟨-, -, h⟩ <;> rw [h]
      · exact (ih vs).cons_cons _
      · exact (ih vs).cons _
      · exact (ih vs).cons_cons _

/-- C17 for values: take the fields an encoder writes for a value, in any order; the decoder returns the value. -/
theorem C17_permuted_value (env : Env) (hE : EnvOk env) (name : List String) (args : List Ty) (fs : Fields)
    (hn : env name = some (.struct fs)) (hk : fs.kind ≠ .unit) (vs : List Val)
    (hw : wt env (.ext name args) (.struct vs) = true) (hf : faithful env (.ext name args) (.struct vs) = true)
    (hl : (enc env false (.ext name args) (.struct vs)).length < 2 ^ 64) :
    ∃ m : List (WireField × Val), enc env false (.ext name args) (.struct vs) = payload (m.map (·.1)) ∧
      ∀ m', m.Perm m' → ∀ s, decodeExt env name args (payload (m'.map (·.1)) ++ s) = .ok (.struct vs) s := by
  refine ⟨_, enc_is_payload env name args fs hn hk vs, fun m' hp s => ?_⟩
  have hnd : (fs.fields.map (·.id)).Nodup := (show FieldsOk fs.fields from hE name _ hn).1
  rw [← C17_order_irrelevant env name args fs hn hk hnd _ m' hp
    ((chunks_ids_sublist env _ vs).nodup (by rw [subst_ids]; exact hnd)) (chunks_understood hE hn hk hw hf hl) s,
    ← enc_is_payload env name args fs hn hk vs]
  exact C13_roundtrip env hE name args _ hw hf hl s

-- the hypotheses are met by a person
example : EnvOk Demo.env ∧ Demo.env ["Person"] = some (.struct Demo.person) ∧ Demo.person.kind ≠ .unit ∧
    wt Demo.env (.ext ["Person"] []) Demo.personV = true ∧ faithful Demo.env (.ext ["Person"] []) Demo.personV = true :=
  ⟨Demo.env_ok, rfl, by decide, by decide +kernel, by decide +kernel⟩
-- and the order really is free: number before street, and a repeated street
example : decodeExt Demo.env ["Address"] [] [0x10, 5, 0x09, 1, 97, 0] = .ok (.struct [.str "a", .some (.num 5)]) [] ∧
    decodeExt Demo.env ["Address"] [] [0x09, 1, 98, 0x10, 5, 0x09, 1, 97, 0] = .ok (.struct [.str "a", .some (.num 5)]) [] := by
  decide +kernel

/-- C18: an encoded field followed (anywhere later) by another one with the same number has no effect. -/
theorem C18_earlier_occurrence_ignored (env : Env) (name : List String) (args : List Ty) (fs : Fields)
    (hn : env name = some (.struct fs)) (hk : fs.kind ≠ .unit) (hnd : (fs.fields.map (·.id)).Nodup)
    (a b : List (WireField × Val)) (e : WireField × Val)
    (hu : ∀ x ∈ a ++ e :: b, Understood (decode env true) (fs.subst args).fields x.1 x.2)
    (hb : ∃ x ∈ b, x.1.id.value = e.1.id.value) (s : Bytes) :
    decodeExt env name args (payload ((a ++ e :: b).map (·.1)) ++ s) =
      decodeExt env name args (payload ((a ++ b).map (·.1)) ++ s) := by
  refine payloads_agree args hn hk hnd hu (fun x hx => hu x ?_) (fun f _ => ?_) s
  · rw [List.mem_append] at hx ⊢
    exact hx.imp id (List.mem_cons_of_mem _)
  · have hcons : e :: b = [e] ++ b := rfl
    rw [hcons, lastVal_append, lastVal_append, lastVal_append]
    by_cases h : e.1.id.value = f.id
    · rw [h] at hb
      have := lastVal_isSome.2 hb
      cases hl : lastVal b f.id with
      | none => rw [hl] at this; simp at this
      | some v => simp
    · rw [lastVal_none (m := [e]) (by simpa using h)]
      cases lastVal b f.id <;> simp

/-- C18, in terms of the result: if `e` carries field `f` (the `i`-th) and nothing behind it does, a successful
decoder returns the value of `e` for that field, whatever came before. -/
theorem C18_last_wins (env : Env) (name : List String) (args : List Ty) (fs : Fields)
    (hn : env name = some (.struct fs)) (hk : fs.kind ≠ .unit) (hnd : (fs.fields.map (·.id)).Nodup)
    (a b : List (WireField × Val)) (e : WireField × Val)
    (hu : ∀ x ∈ a ++ e :: b, Understood (decode env true) (fs.subst args).fields x.1 x.2)
    (i : Nat) (f : Field) (hi : fs.fields[i]? = some f) (he : e.1.id.value = f.id)
    (hb : ∀ x ∈ b, x.1.id.value ≠ f.id) (s s' : Bytes) (v : Val)
    (h : decodeExt env name args (payload ((a ++ e :: b).map (·.1)) ++ s) = .ok v s') :
    s' = s ∧ ∃ vs, v = .struct vs ∧ vs[i]? = some (if isOption f.ty then .some e.2 else e.2) := by
  rw [decodeExt_payload args hn hk hnd _ hu] at h
  cases ha : assemble (fs.kind == .named) (lastVal (a ++ e :: b)) (fs.subst args).fields with
  | error x => rw [ha] at h; simp at h
  | ok vs =>
    rw [ha] at h
    simp only [Res.ok.injEq] at h
    refine ⟨h.2.symm, vs, h.1.symm, ?_⟩
    have hv := assemble_ok.1 ha
    have hget : (vs.map some)[i]? = some (fieldResult (isOption f.ty) (lastVal (a ++ e :: b) f.id)) := by
      rw [hv]
      simp [Fields.subst, hi, isOption_subst]
    have hlast : lastVal (a ++ e :: b) f.id = some e.2 := by
      have hcons : e :: b = [e] ++ b := rfl
      rw [hcons, lastVal_append, lastVal_append, lastVal_none hb]
      simp [lastVal, he]
    rw [hlast] at hget
    simp only [List.getElem?_map, Option.map_eq_some_iff, fieldResult] at hget
    obtain ⟨x, hx, hx'⟩ := hget
    rw [hx, hx']

/-! ### C15 -/

/-- C15, anywhere in a payload (partial: skippable fields only; the full claim is refuted below): an encoded field whose number the reader does not know, and which its marker
allows to skip, can be inserted behind any understood fields and in front of arbitrary bytes without changing
the result, be it a value, an error, or anything else. -/
theorem C15_unknown_field_ignored_partial (env : Env) (name : List String) (args : List Ty) (fs : Fields)
    (hn : env name = some (.struct fs)) (hk : fs.kind ≠ .unit) (hnd : (fs.fields.map (·.id)).Nodup)
    (m : List (WireField × Val)) (hu : ∀ e ∈ m, Understood (decode env true) (fs.subst args).fields e.1 e.2)
    (w : WireField) (hid : idOk w.id.value) (hunk : ∀ f ∈ fs.fields, f.id ≠ w.id.value)
    (hskip : ∀ s, decSkip w.id.encoding (w.body ++ s) = .ok () s) (rest : Bytes) :
    decodeExt env name args (wireBytes (m.map (·.1)) ++ (encId w.id ++ w.body ++ rest)) =
      decodeExt env name args (wireBytes (m.map (·.1)) ++ rest) := by
  have hunk' : ∀ f ∈ (fs.subst args).fields, f.id ≠ w.id.value := by
    intro f hf
    obtain ⟨g, hg, rfl⟩ := List.mem_map.1 (by simpa [Fields.subst] using hf)
    exact hunk g hg
  have hnd' : ((fs.subst args).fields.map (·.id)).Nodup := by rw [subst_ids]; exact hnd
  rw [decodeExt_struct hn, decodeExt_struct hn, decFields_loop _ (fs.subst args) _ hk,
    decFields_loop _ (fs.subst args) _ hk]
  have h1 := loop_wire (decode_locals env) hnd' m hu (fun _ => none) (encId w.id ++ w.body ++ rest)
  have h2 := loop_wire (decode_locals env) hnd' m hu (fun _ => none) rest
  have h3 := loop_step (decode_locals env) hnd' (fun id => m.foldl (fun l e => upd l e.1.id.value e.2) (fun _ => none) id)
    (w := w) (v := .none) ⟨hid, .inr ⟨hunk', hskip⟩⟩ rest
  rw [h1, h2]
  rw [List.append_assoc, h3]
  congr 3
  apply List.map_congr_left
  intro g hg
  unfold upd
  rw [if_neg (hunk' g hg)]

/-- C15 and C16 between two schemas (partial: where the view is defined; the full claim is refuted below): a reader compiled from `R` decodes what a program compiled from `W` wrote to
exactly the reader's view of the value (`Spec/View.lean`: fields matched by number, unknown fields dropped,
absent options `None`, variants matched by number, recursively through all containers), and consumes
exactly what was written. The view is undefined when a common field changed its type, a required field is
missing, or an unknown field cannot be skipped. -/
theorem C15_reader_sees_view_partial (W R : Env) (hW : EnvOk W) (hR : EnvOk R) (name : List String) (args : List Ty)
    (v w : Val) (hw : wt W (.ext name args) v = true) (hf : faithful W (.ext name args) v = true)
    (hl : (enc W false (.ext name args) v).length < 2 ^ 64) (hv : view W R (.ext name args) v = some w) (s : Bytes) :
    decodeExt R name args (enc W false (.ext name args) v ++ s) = .ok w s :=
  ev hW hR v false (.ext name args) hw hf hl w hv s

/-- Between identical schemas the view is the identity: C15 contains the round trip as a special case. -/
theorem C15_view_of_same_schema (W : Env) (hW : EnvOk W) (t : Ty) (v : Val) (hw : wt W t v = true) :
    view W W t v = some v := by
  refine view_same (S := fun _ => true) hW ?_ (namesIn_all t) hw
  intro name d _ hd
  exact ⟨hd, fun _ _ f _ => namesIn_all f.ty⟩

theorem selfPrefixed_strip : ∀ u : Ty, selfPrefixed u = true → ∀ ts, u.strip ≠ .tuple ts
  | .inst u, hs, ts => selfPrefixed_strip u hs ts
  | .nonZero u, hs, ts => by simp only [Ty.strip]; intro h; subst h; simp [selfPrefixed] at hs
  | .prim _, _, _ | .vec _, _, _ | .hashMap _ _, _, _ | .hashSet _, _, _ | .array _ _, _, _ => by simp [Ty.strip]
  | .option _, hs, _ | .tuple _, hs, _ | .ext _ _, hs, _ | .param _, hs, _ => by simp [selfPrefixed] at hs

theorem faithful_declaredExact {W : Env} {t : Ty} {v : Val} (hs : skippable t = true) (ht : isTuple t = false)
    (hf : faithful W t v = true) : declaredExact W t v = true := by
  have hnt : ∀ ts, t.strip ≠ .tuple ts := by
    intro ts
    cases t with
    | tuple ts => simp [isTuple] at ht
    | inst u =>
      simp only [skippable] at hs
      simp only [Ty.strip]
      exact selfPrefixed_strip u hs ts
    | nonZero u =>
      simp only [skippable] at hs
      simp only [Ty.strip]; intro h; subst h; simp [Ty.nzArg] at hs
    | _ => simp [Ty.strip]
  rw [faithful.eq_def] at hf
  unfold declaredExact
  cases h : t.strip with
  | tuple ts => exact absurd h (hnt ts)
  | _ => cases v <;> simp_all

theorem faithfulFields_zip {W : Env} {fs : List Field} {vs : List Val} (h : faithfulFields W fs vs = true) {f : Field}
    {v x : Val} (hm : (f, v) ∈ fs.zip vs) (hx : carried f.ty v = some x) : faithful W (fieldTy f.ty) x = true := by
  induction fs generalizing vs with
  | nil => simp at hm
  | cons g fs ih =>
    cases vs with
    | nil => simp at hm
    | cons w vs =>
      rw [faithfulFields.eq_def] at h
      simp only [Bool.and_eq_true] at h
      rw [List.zip_cons_cons, List.mem_cons, Prod.mk.injEq] at hm
      rcases hm with ⟨rfl, rfl⟩ | hm
      · cases hty : f.ty with
        | option t => cases v <;> simp_all [carried, fieldTy]
        | _ =>
          rw [hty] at hx
          simp only [carried, Option.some.injEq] at hx
          subst hx
          simp only [hty] at h
          exact h.1
      · exact ih h.2 hm

theorem keptVals_subst (keep : BitVec 32 → Bool) (args : List Ty) (l : List Field) (vs : List Val) :
    keptVals keep (l.map fun f => { f with ty := f.ty.subst args }) vs = keptVals keep l vs := by
  induction l generalizing vs with
  | nil => cases vs <;> rfl
  | cons f l ih => cases vs with
    | nil => rfl
    | cons v vs => simp only [List.map_cons, keptVals, ih]

/-- C15, one struct that gained fields (partial as above): `W` declares the fields `fs` for `name`, the reader `R` only those whose
numbers are in `keep`. If the kept fields have types that are the same in both schemas and the new ones are
of types whose marker tells the truth (and not tuples), the reader gets exactly the values of the fields it
knows. -/
theorem C15_added_fields_ignored_partial (W R : Env) (hW : EnvOk W) (hR : EnvOk R) (name : List String) (args : List Ty)
    (fs : Fields) (hn : W name = some (.struct fs)) (hk : fs.kind ≠ .unit) (keep : BitVec 32 → Bool)
    (hr : R name = some (.struct ⟨fs.kind, fs.fields.filter fun f => keep f.id⟩))
    (S : List String → Bool) (hS : Unchanged W R S) (ha : namesInAll S args = true)
    (hkeep : ∀ f ∈ fs.fields, keep f.id = true → namesIn S f.ty = true)
    (hdrop : ∀ f ∈ fs.fields, keep f.id = false →
      skippable (fieldTy (f.ty.subst args)) = true ∧ isTuple (fieldTy (f.ty.subst args)) = false)
    (vs : List Val) (hw : wt W (.ext name args) (.struct vs) = true)
    (hf : faithful W (.ext name args) (.struct vs) = true)
    (hl : (enc W false (.ext name args) (.struct vs)).length < 2 ^ 64) (s : Bytes) :
    decodeExt R name args (enc W false (.ext name args) (.struct vs) ++ s) =
      .ok (.struct (keptVals keep fs.fields vs)) s := by
  refine C15_reader_sees_view_partial W R hW hR name args _ _ hw hf hl ?_ s
  have hok : FieldsOk fs.fields := hW name _ hn
  have hok' := subst_idOk (args := args) hok
  rw [wt.eq_def] at hw
  simp only [Ty.strip, hn, Bool.and_eq_true] at hw
  rw [faithful.eq_def] at hf
  simp only [Ty.strip, hn] at hf
  rw [view.eq_def]
  simp only [Ty.strip, hn, hr]
  have hgs : (Fields.subst args ⟨fs.kind, fs.fields.filter fun f => keep f.id⟩).fields =
      (fs.subst args).fields.filter fun f => keep f.id := by
    simp [Fields.subst, List.filter_map, Function.comp_def]
  have hnd : (((fs.subst args).fields.filter fun f => keep f.id).map (·.id)).Nodup :=
    (List.Sublist.map _ List.filter_sublist).nodup hok'.1
  have hseen := seen_kept (W := W) (R := R) (keep := keep)
    (gs := (fs.subst args).fields.filter fun f => keep f.id) (fs := (fs.subst args).fields) (vs := vs) (by
      intro f hf
      by_cases hkf : keep f.id = true
      · rw [if_pos hkf]
        exact find_of_mem hnd (List.mem_filter.2 ⟨hf, by simpa using hkf⟩)
      · rw [if_neg hkf, List.find?_eq_none]
        intro g hg he
        have : g.id = f.id := by simpa using he
        rw [List.mem_filter] at hg
        rw [this] at hg
        exact hkf hg.2) (by
      intro f v hm x hx
      have hwf := wtFields_zip hw.2.2 hm
      obtain ⟨g, hg, rfl⟩ := List.mem_map.1 (by simpa [Fields.subst] using (List.of_mem_zip hm).1)
      by_cases hkf : keep g.id = true
      · rw [if_pos (show keep ({ g with ty := g.ty.subst args } : Field).id = true from hkf)]
        have hnf := namesIn_subst ha _ (hkeep g hg hkf)
        rcases carried_cases hx with ⟨ht, rfl⟩ | ⟨ht, rfl⟩
        · simp only at ht hwf hnf ⊢
          rw [ht] at hwf hnf
          rcases wt_option_cases hwf with h0 | ⟨y, hy, hwy⟩
          · simp at h0
          · simp only [Val.some.injEq] at hy
            subst hy
            exact view_same hW hS hnf hwy
        · rw [ht]; exact view_same hW hS hnf hwf
      · rw [if_neg (show ¬ keep ({ g with ty := g.ty.subst args } : Field).id = true from hkf)]
        have hd := hdrop g hg (by simpa using hkf)
        exact ⟨hd.1, faithful_declaredExact hd.1 hd.2 (faithfulFields_zip hf hm hx)⟩)
  have has := assemble_kept (named := fs.kind == .named) (keep := keep) hok'.1 hw.2.2
  have hkv : keptVals keep (fs.subst args).fields vs = keptVals keep fs.fields vs := by
    exact keptVals_subst keep args fs.fields vs
  rw [viewBody, if_neg (by simp [hk]),
    if_neg (by simp [hk, show (Fields.subst args ⟨fs.kind, fs.fields.filter fun f => keep f.id⟩).kind = fs.kind from rfl]),
    hgs, hseen]
  simp only [Option.bind_some]
  rw [show (Fields.subst args ⟨fs.kind, fs.fields.filter fun f => keep f.id⟩).kind = fs.kind from rfl, has, hkv]
  rfl

/-- An older version of the demo schema: `Person` knows neither `tags` nor `scores`, `age` is optional and there
is an additional option `mail @20`; `Address` has no `no`. -/
def oldDefs : List (List String × Def) := [
  (["Address"], .struct ⟨.named, [⟨"street", .prim .string, 1⟩]⟩),
  (["Pair"], .struct ⟨.named, [⟨"a", .param 0, 1⟩, ⟨"b", .param 1, 2⟩]⟩),
  (["Person"], .struct ⟨.named, [⟨"mail", .option (.prim .string), 20⟩, ⟨"age", .option (.prim .u16), 2⟩,
    ⟨"name", .prim .string, 1⟩, ⟨"home", .ext ["Address"] [], 5⟩,
    ⟨"pair", .ext ["Pair"] [.prim .u8, .ext ["Address"] []], 8⟩]⟩)]

/-- The hypotheses of C15 are met by a person written with the new schema and read with the old one. -/
theorem C15_example (s : Bytes) :
    decodeExt (Demo.envOf oldDefs) ["Person"] [] (enc Demo.env false (.ext ["Person"] []) Demo.personV ++ s) =
      .ok (.struct [.none, .some (.num 300), .str "Zoë", .struct [.str "Main"],
        .struct [.num 3, .struct [.str "Main"]]]) s :=
  C15_reader_sees_view_partial Demo.env (Demo.envOf oldDefs) Demo.env_ok (Demo.envOf_ok (by decide +kernel)) _ _ _ _
    (by decide +kernel) (by decide +kernel) (by decide +kernel) (by decide +kernel) s

-- … and those of `C15_added_fields_ignored_partial` by an `Address` read by a schema without the field `no`
example (s : Bytes) :
    decodeExt (Demo.envOf oldDefs) ["Address"] [] (enc Demo.env false (.ext ["Address"] []) Demo.addressV ++ s) =
      .ok (.struct [.str "Main"]) s :=
  C15_added_fields_ignored_partial Demo.env (Demo.envOf oldDefs) Demo.env_ok (Demo.envOf_ok (by decide +kernel)) ["Address"] []
    Demo.address rfl (by decide) (fun id => id == 1) rfl (fun _ => false) (by intro _ _ h; simp at h) rfl
    (by decide +kernel) (by decide +kernel) _ (by decide +kernel) (by decide +kernel) (by decide +kernel) s

/-- Refutation of C15 for all field types: a new field holding a struct makes the old reader fail. -/
theorem C15_fails_for_struct_fields :
    let inner : List String × Def := (["Inner"], .struct ⟨.named, [⟨"a", .prim .u8, 1⟩]⟩)
    let W := Demo.envOf [(["S"], .struct ⟨.named, [⟨"x", .prim .u8, 1⟩, ⟨"y", .ext ["Inner"] [], 2⟩]⟩), inner]
    let R := Demo.envOf [(["S"], .struct ⟨.named, [⟨"x", .prim .u8, 1⟩]⟩), inner]
    let v := Val.struct [.num 5, .struct [.num 7]]
    EnvOk W ∧ EnvOk R ∧ wt W (.ext ["S"] []) v = true ∧ faithful W (.ext ["S"] []) v = true ∧
      decodeExt R ["S"] [] (enc W false (.ext ["S"] []) v) = .err .insufficientData :=
  ⟨Demo.envOf_ok (by decide +kernel), Demo.envOf_ok (by decide +kernel), by decide +kernel, by decide +kernel,
    by decide +kernel⟩

/-! ### C19 -/

theorem decodeExt_enum {env : Env} {name : List String} {args : List Ty} {vars : List Variant}
    (hn : env name = some (.enum vars)) (r : Bytes) :
    decodeExt env name args r = (decVariantId r).bind fun id r =>
      match vars.findIdx? (fun v => v.id == id) with
      | some i =>
        match vars[i]? with
        | some var => (decFields (decode env true) (var.fields.subst args) r).map (.enum i)
        | none => .panic
      | none => .err (.unknownVariant id.toNat) := by
  rw [decodeExt_eq, hn]; rfl

/-- C19, unknown variant: an id that no variant has gives `UnknownVariant` with that id, whatever follows. -/
theorem C19_unknown_variant (env : Env) (name : List String) (args : List Ty) (vars : List Variant)
    (hn : env name = some (.enum vars)) (id : BitVec 32) (h : ∀ v ∈ vars, v.id ≠ id) (r : Bytes) :
    decodeExt env name args (encVariantId id ++ r) = .err (.unknownVariant id.toNat) := by
  rw [decodeExt_enum hn]
  unfold decVariantId encVariantId
  rw [decUint_enc (by omega), Res.bind_ok]
  have : vars.findIdx? (fun v => v.id == id) = none := by
    rw [List.findIdx?_eq_none_iff]
    intro x hx
    simpa using h x hx
  rw [this]

/-- C19, known variant: the bytes behind the id of variant `i` are decoded exactly like a struct with the
fields of that variant, and the result is variant `i` with these fields. -/
theorem C19_known_variant (env : Env) (name sname : List String) (args : List Ty) (vars : List Variant)
    (hn : env name = some (.enum vars)) (hnd : (vars.map (·.id)).Nodup) (i : Nat) (var : Variant)
    (hi : vars[i]? = some var) (hs : env sname = some (.struct var.fields)) (r : Bytes) :
    decodeExt env name args (encVariantId var.id ++ r) =
      (decodeExt env sname args r).map fun v => match v with | .struct vs => .enum i vs | v => v := by
  rw [decodeExt_enum hn, decodeExt_struct hs]
  unfold decVariantId encVariantId
  rw [decUint_enc (by omega), Res.bind_ok, findIdx_variant hnd hi]
  simp only [hi]
  cases decFields (decode env true) (var.fields.subst args) r <;> rfl

/-- C19, unit variants: nothing is read behind the id. -/
theorem C19_unit_variant (env : Env) (name : List String) (args : List Ty) (vars : List Variant)
    (hn : env name = some (.enum vars)) (hnd : (vars.map (·.id)).Nodup) (i : Nat) (var : Variant)
    (hi : vars[i]? = some var) (hu : var.fields.kind = .unit) (r : Bytes) :
    decodeExt env name args (encVariantId var.id ++ r) = .ok (.enum i []) r := by
  rw [decodeExt_enum hn]
  unfold decVariantId encVariantId
  rw [decUint_enc (by omega), Res.bind_ok, findIdx_variant hnd hi]
  simp only [hi, decFields, show (var.fields.subst args).kind = var.fields.kind from rfl, hu, if_true]
  rfl

/-- C19, soundness: whatever the input, a successfully decoded enum value is a variant of the schema whose id is
the varint the input starts with. -/
theorem C19_decoded_variant (env : Env) (name : List String) (args : List Ty) (vars : List Variant)
    (hn : env name = some (.enum vars)) (r r' : Bytes) (v : Val) (h : decodeExt env name args r = .ok v r') :
    ∃ i vs var r1, v = .enum i vs ∧ vars[i]? = some var ∧ decUint 32 r = .ok var.id r1 := by
  rw [decodeExt_enum hn, Res.bind_eq_ok] at h
  obtain ⟨id, r1, h1, h2⟩ := h
  cases hf : vars.findIdx? (fun v => v.id == id) with
  | none => rw [hf] at h2; simp at h2
  | some i =>
    rw [hf] at h2
    simp only at h2
    cases hi : vars[i]? with
    | none => rw [hi] at h2; simp at h2
    | some var =>
      rw [hi] at h2
      simp only [Res.map_eq_ok] at h2
      obtain ⟨vs, -, rfl⟩ := h2
      have hid : var.id = id := by
        rw [List.findIdx?_eq_some_iff_getElem] at hf
        obtain ⟨hlt, hp, -⟩ := hf
        rw [List.getElem?_eq_getElem hlt, Option.some.injEq] at hi
        rw [hi] at hp
        simpa using hp
      exact ⟨i, vs, var, r1, rfl, hi, by rw [hid]; exact h1⟩

example (r : Bytes) : decodeExt Demo.env ["Shape"] [] (encVariantId 7 ++ r) = .err (.unknownVariant 7) :=
  C19_unknown_variant Demo.env ["Shape"] [] Demo.shape rfl 7 (by decide +kernel) r
example (r : Bytes) : decodeExt Demo.env ["Shape"] [] (encVariantId 1 ++ r) = .ok (.enum 0 []) r :=
  C19_unit_variant Demo.env ["Shape"] [] Demo.shape rfl (by decide +kernel) 0 _ rfl rfl r
example : decodeExt Demo.env ["Shape"] [] (encVariantId 300 ++ [0x08, 3, 0x10, 4, 0, 99]) =
    .ok (.enum 2 [.num 3, .num 4]) [99] := by decide +kernel

end Mabo.Props
