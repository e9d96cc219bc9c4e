import Verif.Spec.Faithful
import Verif.Wire
/-! Round trip of generated code: `decode (encode v ++ s) = (v, s)`. -/
namespace Mabo.Codegen
open Mabo.Buf Mabo.Varint Mabo.Schema Mabo.Spec

/-! ### leaves -/

/-- Integer representations have at least eight bits. -/
def Rep.wide : Rep → Prop
  | .uint w | .sint w => 8 ≤ w
  | _ => True

theorem Prim.rep_wide (p : Prim) : Rep.wide p.rep := by
  cases p <;> simp only [Prim.rep, Rep.wide] <;> omega

theorem strBytes_length (x : String) : (strBytes x).length = x.utf8ByteSize := by
  simp only [strBytes, Array.length_toList]; rfl

theorem encBytes_length (x : Bytes) : (encBytes x).length = (encLen x.length).length + x.length := by
  simp [encBytes]

theorem decRep_enc (p : Rep) (hw : Rep.wide p) (v : Val) (s : Bytes) (h : p.has v = true)
    (hlen : (encRep p v).length < 2 ^ 64) : decRep p (encRep p v ++ s) = .ok v s := by
  cases p with
  | bool =>
    cases v with
    | bool b => cases b <;> rfl
    | _ => simp [Rep.has] at h
  | byte =>
    cases v with
    | num n =>
      simp only [Rep.has, decide_eq_true_eq] at h
      simp only [decRep, encRep]
      rw [(Props.C08_fixed_roundtrip true (BitVec.ofNat 8 n) 0 0 s).2.1.1, Res.map_ok, BitVec.toNat_ofNat,
        Nat.mod_eq_of_lt h]
    | _ => simp [Rep.has] at h
  | uint w =>
    cases v with
    | num n =>
      simp only [Rep.has, decide_eq_true_eq] at h
      simp only [decRep, encRep, encUint]
      rw [decUint_enc hw, Res.map_ok, BitVec.toNat_ofNat, Nat.mod_eq_of_lt h]
    | _ => simp [Rep.has] at h
  | sint w =>
    cases v with
    | num n =>
      simp only [Rep.has, decide_eq_true_eq] at h
      simp only [decRep, encRep, encSint]
      rw [decSint_enc hw, Res.map_ok, BitVec.toNat_ofNat, Nat.mod_eq_of_lt h]
    | _ => simp [Rep.has] at h
  | f32 =>
    cases v with
    | num n =>
      simp only [Rep.has, decide_eq_true_eq] at h
      simp only [decRep, encRep]
      rw [(Props.C08_fixed_roundtrip true 0 (BitVec.ofNat 32 n) 0 s).2.2.1.1, Res.map_ok, BitVec.toNat_ofNat,
        Nat.mod_eq_of_lt h]
    | _ => simp [Rep.has] at h
  | f64 =>
    cases v with
    | num n =>
      simp only [Rep.has, decide_eq_true_eq] at h
      simp only [decRep, encRep]
      rw [(Props.C08_fixed_roundtrip true 0 0 (BitVec.ofNat 64 n) s).2.2.2.1, Res.map_ok, BitVec.toNat_ofNat,
        Nat.mod_eq_of_lt h]
    | _ => simp [Rep.has] at h
  | str =>
    cases v with
    | str x =>
      simp only [decRep, encRep, encString, encBytes_length, strBytes_length] at hlen ⊢
      have := (Props.C07_string_roundtrip x s (by omega)).1
      unfold encString at this
      rw [this, Res.map_ok]
    | _ => simp [Rep.has] at h
  | bytes =>
    cases v with
    | bytes x =>
      simp only [decRep, encRep, encBytes_length] at hlen ⊢
      rw [(Props.C07_bytes_roundtrip x s (by omega)).1, Res.map_ok]
    | _ => simp [Rep.has] at h

theorem decNzRep_enc (p : Prim) (v : Val) (s : Bytes) (h : p.rep.has v = true) (hz : v.nonzero = true)
    (ha : (Ty.prim p).nzArg = true) (hlen : (encRep p.rep v).length < 2 ^ 64) :
    decNzRep p.rep (encRep p.rep v ++ s) = .ok v s := by
  have hw := Prim.rep_wide p
  have hn : p.rep ≠ .bool ∧ p.rep ≠ .f32 ∧ p.rep ≠ .f64 := by
    cases p <;> simp [Ty.nzArg] at ha <;> simp [Prim.rep]
  generalize p.rep = q at *
  have nz0 : ∀ (w n : Nat), n < 2 ^ w → (n != 0) = true → BitVec.ofNat w n ≠ 0#w := by
    intro w n hn h0 he
    have := congrArg BitVec.toNat he
    rw [BitVec.toNat_ofNat, Nat.mod_eq_of_lt hn] at this
    simp at this h0
    omega
  cases q with
  | bool => simp at hn
  | f32 => simp at hn
  | f64 => simp at hn
  | byte =>
    cases v with
    | num n =>
      simp only [Rep.has, decide_eq_true_eq] at h
      simp only [decNzRep, encRep, decNonZeroInt]
      rw [(Props.C08_fixed_roundtrip true (BitVec.ofNat 8 n) 0 0 s).2.1.1, Res.bind_ok,
        if_neg (nz0 8 n h hz), Res.map_ok, BitVec.toNat_ofNat, Nat.mod_eq_of_lt h]
    | _ => simp [Rep.has] at h
  | uint w =>
    cases v with
    | num n =>
      simp only [Rep.has, decide_eq_true_eq] at h
      simp only [decNzRep, encRep, encUint, decNonZeroInt]
      rw [decUint_enc hw, Res.bind_ok, if_neg (nz0 w n h hz), Res.map_ok, BitVec.toNat_ofNat, Nat.mod_eq_of_lt h]
    | _ => simp [Rep.has] at h
  | sint w =>
    cases v with
    | num n =>
      simp only [Rep.has, decide_eq_true_eq] at h
      simp only [decNzRep, encRep, encSint, decNonZeroInt]
      rw [decSint_enc hw, Res.bind_ok, if_neg (nz0 w n h hz), Res.map_ok, BitVec.toNat_ofNat, Nat.mod_eq_of_lt h]
    | _ => simp [Rep.has] at h
  | bytes =>
    cases v with
    | bytes x =>
      simp only [encRep, encBytes_length] at hlen
      simp only [decNzRep, encRep, decNonZeroBytes, encBytes, Val.nonzero] at hz ⊢
      have hx : x ≠ [] := by rintro rfl; simp at hz
      rw [List.append_assoc, decPrefixedNz_enc _ x _ (by omega), if_neg hx, nzUnwrap, if_neg (by simpa using hx),
        Res.map_ok]
    | _ => simp [Rep.has] at h
  | str =>
    cases v with
    | str x =>
      simp only [encRep, encString, encBytes_length] at hlen
      simp only [decNzRep, encRep, decNonZeroString, decNonZeroBytes, encString, encBytes, Val.nonzero] at hz ⊢
      have hx : x ≠ "" := by simpa using hz
      have hb : strBytes x ≠ [] := by
        intro he
        apply hx
        have h1 := fromUtf8_strBytes x
        have h2 := fromUtf8_strBytes ""
        rw [he] at h1
        have : strBytes "" = [] := rfl
        rw [this] at h2
        rw [h2] at h1
        simpa using h1.symm
      rw [List.append_assoc, decPrefixedNz_enc _ (strBytes x) _ (by omega), if_neg hb, nzUnwrap, if_neg (by simpa using hb),
        Res.bind_ok, fromUtf8_strBytes]
      simp only
      rw [if_neg (by simpa using hx), Res.map_ok]
    | _ => simp [Rep.has] at h

/-! ### linking the interpreters to the runtime combinators -/

theorem encList_eq (env : Env) (t : Ty) (xs : List Val) : encList env t xs = encElems (enc env false t) xs := by
  induction xs with
  | nil => rfl
  | cons x xs ih => simp only [encList, encElems, ih]

theorem sizeList_eq (env : Env) (t : Ty) (xs : List Val) : sizeList env t xs = sumSizes (size env t) xs := by
  induction xs with
  | nil => rfl
  | cons x xs ih => simp only [sizeList, sumSizes, ih]

/-- Entry lists of typed hash maps are lists of pairs. -/
theorem wtEntries_pairs {env : Env} {k w : Ty} {xs : List Val} (h : wtEntries env k w xs = true) :
    ∃ es : List (Val × Val), xs = es.map toPair := by
  induction xs with
  | nil => exact ⟨[], rfl⟩
  | cons x xs ih =>
    cases x with
    | pair a b =>
      simp only [wtEntries, Bool.and_eq_true] at h
      obtain ⟨es, rfl⟩ := ih h.2
      exact ⟨(a, b) :: es, rfl⟩
    | _ => simp [wtEntries] at h

theorem encEntries_eq (env : Env) (k w : Ty) (es : List (Val × Val)) :
    encEntries env k w (es.map toPair) =
      encElems (fun e : Val × Val => enc env false k e.1 ++ enc env false w e.2) es := by
  induction es with
  | nil => rfl
  | cons e es ih => simp only [List.map_cons, toPair, encEntries, encElems] at ih ⊢; rw [ih]

theorem keys_map (es : List (Val × Val)) : Val.keys (es.map toPair) = es.map (·.1) := by
  induction es with
  | nil => rfl
  | cons e es ih => simp only [List.map_cons, toPair, Val.keys] at ih ⊢; rw [ih]

theorem decWindow_enc {α : Type} (d : Dec α) (enc : α → Bytes) (xs : List α) (s : Bytes)
    (hd : ∀ x ∈ xs, ∀ s, d (enc x ++ s) = .ok x s) (hne : ∀ x ∈ xs, enc x ≠ []) :
    decWindow d (encElems enc xs) s = .ok xs s := by
  unfold decWindow
  rw [decodeMany_enc d enc xs _ hd hne (Nat.le_refl _), Res.bind_ok]

/-! ### generic instantiation is transparent -/

theorem wt_inst (env : Env) (t : Ty) (v : Val) : wt env (.inst t) v = wt env t v := by
  rw [wt.eq_def, wt.eq_def env t v]; simp only [Ty.strip, Ty.nzOk, Ty.isNz]

theorem faithful_inst (env : Env) (t : Ty) (v : Val) : faithful env (.inst t) v = faithful env t v := by
  rw [faithful.eq_def, faithful.eq_def env t v]; simp only [Ty.strip]

theorem size_inst (env : Env) (t : Ty) (v : Val) : size env (.inst t) v = size env t v := by
  rw [size.eq_def, size.eq_def env t v]; simp only [Ty.strip]

theorem enc_inst (env : Env) (root : Bool) (t : Ty) (v : Val) : enc env root (.inst t) v = enc env false t v := by
  rw [enc.eq_def, enc.eq_def env false t v]; simp only [Ty.strip]

/-- Not a generic instantiation. -/
def core : Ty → Prop
  | .inst _ => False
  | _ => True

/-- The round-trip statement for one value. -/
def RT (env : Env) (v : Val) (root : Bool) (t : Ty) : Prop :=
  wt env t v = true → faithful env t v = true → (enc env root t v).length < 2 ^ 64 →
    ∀ s, decode env root t (enc env root t v ++ s) = .ok v s

theorem rt_of_core {env : Env} {v : Val} (h : ∀ root t, core t → RT env v root t) :
    ∀ root t, RT env v root t
  | root, .inst t => by
    intro hw hf hl s
    rw [wt_inst] at hw
    rw [faithful_inst] at hf
    rw [enc_inst] at hl ⊢
    have := rt_of_core h false t hw hf hl s
    unfold decode at this ⊢
    rw [decTy]; exact this
  | root, .prim p => h root _ trivial
  | root, .vec _ => h root _ trivial
  | root, .hashMap _ _ => h root _ trivial
  | root, .hashSet _ => h root _ trivial
  | root, .option _ => h root _ trivial
  | root, .nonZero _ => h root _ trivial
  | root, .tuple _ => h root _ trivial
  | root, .array _ _ => h root _ trivial
  | root, .ext _ _ => h root _ trivial
  | root, .param _ => h root _ trivial

/-! ### fields -/

/-- The encoding of one field: nothing for an absent option. -/
def chunk (env : Env) (f : Field) (v : Val) : List (WireField × Val) :=
  match f.ty, v with
  | .option t, .some v => [(⟨⟨f.id, marker t⟩, enc env true t v⟩, v)]
  | .option _, _ => []
  | t, v => [(⟨⟨f.id, marker t⟩, enc env true t v⟩, v)]

/-- The encoded fields of a struct value. -/
def chunks (env : Env) : List Field → List Val → List (WireField × Val)
  | f :: fs, v :: vs => chunk env f v ++ chunks env fs vs
  | _, _ => []

/-- What an option field carries on the wire. -/
def optVal : Val → Option Val
  | .some x => some x
  | _ => none

theorem chunk_cases (env : Env) (f : Field) (v : Val) :
    (∃ t, f.ty = .option t ∧ ((∃ x, v = .some x ∧ chunk env f v = [(⟨⟨f.id, marker t⟩, enc env true t x⟩, x)]) ∨
        ((∀ x, v ≠ .some x) ∧ chunk env f v = []))) ∨
    (isOption f.ty = false ∧ fieldTy f.ty = f.ty ∧
      chunk env f v = [(⟨⟨f.id, marker f.ty⟩, enc env true f.ty v⟩, v)]) := by
  unfold chunk
  cases hty : f.ty with
  | option t =>
    left
    refine ⟨t, rfl, ?_⟩
    cases v <;> simp
  | _ => right; exact ⟨rfl, rfl, rfl⟩

theorem encFields_cons (env : Env) (f : Field) (fs : List Field) (v : Val) (vs : List Val) :
    encFields env (f :: fs) (v :: vs) =
      (chunk env f v).flatMap (fun e => encId e.1.id ++ e.1.body) ++ encFields env fs vs := by
  unfold chunk
  rw [encFields.eq_def]
  cases hty : f.ty with
  | option t => cases v <;> simp only [hty, List.flatMap_cons, List.flatMap_nil, List.append_nil]
  | _ => simp only [hty, List.flatMap_cons, List.flatMap_nil, List.append_nil, encField]

theorem wireBytes_append (a b : List WireField) : wireBytes (a ++ b) = wireBytes a ++ wireBytes b := by
  simp [wireBytes]

theorem encFields_eq (env : Env) (fs : List Field) (vs : List Val) :
    encFields env fs vs = wireBytes ((chunks env fs vs).map (·.1)) := by
  induction fs generalizing vs with
  | nil => cases vs <;> rfl
  | cons f fs ih =>
    cases vs with
    | nil => rfl
    | cons v vs =>
      rw [encFields_cons, chunks, List.map_append, wireBytes_append, ih vs]
      congr 1
      simp [wireBytes, List.flatMap_map]

theorem chunk_id {env : Env} {f : Field} {v : Val} {e : WireField × Val}
    (he : e ∈ chunk env f v) : e.1.id.value = f.id := by
  rcases chunk_cases env f v with ⟨t, -, ⟨x, -, h⟩ | ⟨-, h⟩⟩ | ⟨-, -, h⟩ <;> rw [h] at he <;> simp at he <;>
    subst he <;> rfl

theorem chunks_id {env : Env} {fs : List Field} {vs : List Val} {e : WireField × Val}
    (he : e ∈ chunks env fs vs) : ∃ f ∈ fs, f.id = e.1.id.value := by
  induction fs generalizing vs with
  | nil => cases vs <;> simp [chunks] at he
  | cons f fs ih =>
    cases vs with
    | nil => simp [chunks] at he
    | cons v vs =>
      simp only [chunks, List.mem_append] at he
      rcases he with he | he
      · exact ⟨f, List.mem_cons_self .., (chunk_id he).symm⟩
      · obtain ⟨g, hg, h⟩ := ih he
        exact ⟨g, List.mem_cons_of_mem _ hg, h⟩

theorem lastVal_append {α : Type} (a b : List (WireField × α)) (id : BitVec 32) :
    lastVal (a ++ b) id = (lastVal b id).or (lastVal a id) := by
  simp only [lastVal, List.filter_append, List.getLast?_append]
  cases (List.filter (fun e => e.1.id.value == id) b).getLast? <;> simp

theorem lastVal_none {α : Type} {m : List (WireField × α)} {id : BitVec 32}
    (h : ∀ e ∈ m, e.1.id.value ≠ id) : lastVal m id = none := by
  have : m.filter (fun e => e.1.id.value == id) = [] := by
    rw [List.filter_eq_nil_iff]
    intro e he
    simpa using h e he
  rw [lastVal, this]; rfl

theorem assemble_congr {named : Bool} {l₁ l₂ : BitVec 32 → Option Val} {fs : List Field}
    (h : ∀ f ∈ fs, l₁ f.id = l₂ f.id) : assemble named l₁ fs = assemble named l₂ fs := by
  induction fs with
  | nil => rfl
  | cons f fs ih =>
    simp only [List.mem_cons, forall_eq_or_imp] at h
    simp only [assemble]
    rw [h.1, ih h.2]

theorem wt_option_cases {env : Env} {t : Ty} {v : Val} (h : wt env (.option t) v = true) :
    v = .none ∨ ∃ x, v = .some x ∧ wt env t x = true := by
  cases v with
  | none => exact .inl rfl
  | some x =>
    refine .inr ⟨x, rfl, ?_⟩
    simpa [wt, Ty.strip, Ty.nzOk, Ty.isNz] using h
  | _ => rw [wt.eq_def] at h; simp [Ty.strip] at h

/-- The fields of an encoded value assemble to the value. -/
theorem assemble_chunks {env : Env} (named : Bool) {fs : List Field} {vs : List Val}
    (hnd : (fs.map (·.id)).Nodup) (hw : wtFields env fs vs = true) :
    assemble named (lastVal (chunks env fs vs)) fs = .ok vs := by
  induction fs generalizing vs with
  | nil => cases vs with
    | nil => rfl
    | cons v vs => simp [wtFields] at hw
  | cons f fs ih =>
    cases vs with
    | nil => simp [wtFields] at hw
    | cons v vs =>
      simp only [wtFields, Bool.and_eq_true] at hw
      rw [List.map_cons, List.nodup_cons] at hnd
      have htail : lastVal (chunks env fs vs) f.id = none := by
        apply lastVal_none
        intro e he heq
        obtain ⟨g, hg, h⟩ := chunks_id he
        exact hnd.1 (List.mem_map.2 ⟨g, hg, h.trans heq⟩)
      have hrest : assemble named (lastVal (chunks env (f :: fs) (v :: vs))) fs = .ok vs := by
        rw [← ih hnd.2 hw.2]
        apply assemble_congr
        intro g hg
        rw [chunks, lastVal_append]
        rw [lastVal_none (m := chunk env f v)]
        · simp
        · intro e he heq
          exact hnd.1 (List.mem_map.2 ⟨g, hg, by rw [← heq, chunk_id he]⟩)
      have hlook : lastVal (chunks env (f :: fs) (v :: vs)) f.id = lastVal (chunk env f v) f.id := by
        rw [chunks, lastVal_append, htail]; rfl
      have hone : ∀ (m : FieldEncoding) (b : Bytes) (x : Val),
          lastVal [((⟨⟨f.id, m⟩, b⟩ : WireField), x)] f.id = some x := by
        intro m b x; simp [lastVal]
      rw [assemble, hrest, hlook]
      rcases chunk_cases env f v with ⟨t, ht, ⟨x, rfl, h⟩ | ⟨hx, h⟩⟩ | ⟨ho, -, h⟩
      · rw [h, hone, ht]; rfl
      · rw [h, ht]
        have hv := hw.1
        rw [ht] at hv
        rcases wt_option_cases hv with rfl | ⟨x, rfl, -⟩
        · rfl
        · exact absurd rfl (hx x)
      · rw [h, hone]
        cases hty : f.ty <;> rw [hty] at ho <;> simp only [isOption, Bool.true_eq_false] at ho <;> rfl

theorem subst_ids (args : List Ty) (fs : Fields) : (fs.subst args).fields.map (·.id) = fs.fields.map (·.id) := by
  simp [Fields.subst, Function.comp_def]

theorem subst_idOk {args : List Ty} {fs : Fields} (h : FieldsOk fs.fields) : FieldsOk (fs.subst args).fields := by
  refine ⟨by rw [subst_ids]; exact h.1, ?_⟩
  intro f hf
  simp only [Fields.subst, List.mem_map] at hf
  obtain ⟨g, hg, rfl⟩ := hf
  exact h.2 g hg

theorem endMarker_enc : encodeU (BitVec.ofNat 32 endMarker) = [0] := by decide

theorem decode_locals (env : Env) : ∀ t, Local (decode env true t) := fun t => decode_local env true t

/-- Round trip of a struct body, given round trips of the field values. -/
theorem decFields_enc {env : Env} (fs : Fields) (hok : FieldsOk fs.fields) (hk : fs.kind ≠ .unit)
    {vs : List Val} (hw : wtFields env fs.fields vs = true)
    (hrt : ∀ e ∈ chunks env fs.fields vs, ∃ f ∈ fs.fields, f.id = e.1.id.value ∧
      ∀ s, decode env true (fieldTy f.ty) (e.1.body ++ s) = .ok e.2 s) (s : Bytes) :
    decFields (decode env true) fs
      ((encFields env fs.fields vs ++ encodeU (BitVec.ofNat 32 endMarker)) ++ s) = .ok vs s := by
  have h := decFields_payload (decode_locals env) fs hk hok.1 (chunks env fs.fields vs) (by
    intro e he
    obtain ⟨f, hf, hid, hd⟩ := hrt e he
    exact ⟨hid ▸ hok.2 f hf, .inl ⟨f, hf, hid, hd⟩⟩) s
  rw [assemble_chunks _ hok.1 hw] at h
  rw [endMarker_enc, encFields_eq]
  exact h

/-! ### one level of the induction -/

theorem rt_prim {env : Env} (v : Val) (root : Bool) (p : Prim) : RT env v root (.prim p) := by
  intro hw _ hl s
  rw [wt.eq_def] at hw
  simp only [Ty.nzOk, Ty.isNz, Ty.strip, Bool.not_false, Bool.true_or, Bool.and_self, Bool.true_and] at hw
  have he : enc env root (.prim p) v = encRep p.rep v := by rw [enc.eq_def]; simp only [Ty.strip]
  rw [he] at hl ⊢
  unfold decode
  rw [decTy]
  exact decRep_enc _ (Prim.rep_wide p) v s hw hl

theorem rt_nzPrim {env : Env} (v : Val) (root : Bool) (p : Prim) : RT env v root (.nonZero (.prim p)) := by
  intro hw _ hl s
  rw [wt.eq_def] at hw
  simp only [Ty.nzOk, Ty.isNz, Ty.strip, Bool.not_true, Bool.false_or, Bool.and_eq_true] at hw
  have he : enc env root (.nonZero (.prim p)) v = encRep p.rep v := by rw [enc.eq_def]; simp only [Ty.strip]
  rw [he] at hl ⊢
  unfold decode
  rw [decTy, if_pos hw.1.1]
  exact decNzRep_enc p v s hw.2 hw.1.2 hw.1.1 hl

/-- `non_zero` of a type the generator has no arm for has no values. -/
theorem wt_nz {env : Env} {t : Ty} {v : Val} (h : wt env (.nonZero t) v = true) :
    t.nzArg = true ∧ v.nonzero = true := by
  rw [wt.eq_def] at h
  simp only [Ty.nzOk, Ty.isNz, Bool.not_true, Bool.false_or, Bool.and_eq_true] at h
  exact h.1

theorem rt_leaf {env : Env} {v : Val} (hl : ∀ xs, v ≠ .list xs) (hs : ∀ x, v ≠ .some x)
    (hst : ∀ xs, v ≠ .struct xs) (hen : ∀ i xs, v ≠ .enum i xs) (root : Bool) (t : Ty) (hc : core t) :
    RT env v root t := by
  cases t with
  | prim p => exact rt_prim v root p
  | inst t => exact hc.elim
  | option t =>
    intro hw hf hlen s
    rcases wt_option_cases hw with rfl | ⟨x, rfl, -⟩
    · have : enc env root (.option t) .none = [0] := by rw [enc.eq_def]; simp only [Ty.strip]
      rw [this]
      unfold decode
      rw [decTy]
      rfl
    · exact absurd rfl (hs x)
  | nonZero t =>
    cases t with
    | prim p => exact rt_nzPrim v root p
    | _ =>
      intro hw
      have := wt_nz hw
      rw [wt.eq_def] at hw
      cases v <;> simp_all [Ty.strip, Ty.nzArg, Val.nonzero]
  | _ =>
    intro hw
    rw [wt.eq_def] at hw
    cases v <;> simp_all [Ty.strip]

theorem rt_some {env : Env} {x : Val} (ih : ∀ root t, RT env x root t) (root : Bool) (t : Ty) (hc : core t) :
    RT env (.some x) root t := by
  cases t with
  | prim p => exact rt_prim _ root p
  | inst t => exact hc.elim
  | option t =>
    intro hw hf hlen s
    have hw' : wt env t x = true := by simpa [wt, Ty.strip, Ty.nzOk, Ty.isNz] using hw
    have hf' : faithful env t x = true := by simpa [faithful, Ty.strip] using hf
    have he : enc env root (.option t) (.some x) = 1 :: enc env false t x := by
      rw [enc.eq_def]; simp only [Ty.strip]
    rw [he, List.length_cons] at hlen
    rw [he]
    have := ih false t hw' hf' (by omega) s
    unfold decode at this ⊢
    rw [decTy]
    simp only [List.cons_append, decOption, decU8, Res.bind_ok]
    rw [if_pos (by rfl), this]
    rfl
  | nonZero t =>
    intro hw
    simpa [Val.nonzero] using (wt_nz hw).2
  | _ =>
    intro hw
    rw [wt.eq_def] at hw
    simp [Ty.strip] at hw

/-- Elements of a list value, as established by the induction. -/
def ElemsRT (env : Env) (xs : List Val) : Prop :=
  ∀ t, wtList env t xs = true → faithfulElems env t xs = true → (encList env t xs).length < 2 ^ 64 →
    ∀ x ∈ xs, (∀ s, decode env false t (enc env false t x ++ s) = .ok x s) ∧ enc env false t x ≠ []

/-- Entries of a map value, as established by the induction. -/
def EntriesRT (env : Env) (xs : List Val) : Prop :=
  ∀ k w, wtEntries env k w xs = true → faithfulEntries env k w xs = true →
    (encEntries env k w xs).length < 2 ^ 64 →
    ∀ a b, Val.pair a b ∈ xs → (∀ s, decode env false k (enc env false k a ++ s) = .ok a s) ∧
      (∀ s, decode env false w (enc env false w b ++ s) = .ok b s) ∧
      enc env false k a ++ enc env false w b ≠ []

/-- Elements of a tuple value, as established by the induction. -/
def TupleRT (env : Env) (xs : List Val) : Prop :=
  ∀ ts, wtTuple env ts xs = true → faithfulTuple env ts xs = true → (encTuple env ts xs).length < 2 ^ 64 →
    ∀ s, decTuple (decodeExt env) ts (encTuple env ts xs ++ s) = .ok xs s

/-- Fields of a struct value, as established by the induction. -/
def FieldsRT (env : Env) (vs : List Val) : Prop :=
  ∀ fs, wtFields env fs vs = true → faithfulFields env fs vs = true → (encFields env fs vs).length < 2 ^ 64 →
    ∀ e ∈ chunks env fs vs, ∃ f ∈ fs, f.id = e.1.id.value ∧
      ∀ s, decode env true (fieldTy f.ty) (e.1.body ++ s) = .ok e.2 s

theorem wtTuple_length {env : Env} {ts : List Ty} {xs : List Val} (h : wtTuple env ts xs = true) :
    xs.length = ts.length := by
  induction ts generalizing xs with
  | nil => cases xs <;> simp_all [wtTuple]
  | cons t ts ih =>
    cases xs with
    | nil => simp [wtTuple] at h
    | cons x xs =>
      simp only [wtTuple, Bool.and_eq_true] at h
      simp [ih h.2]

/-- The window of a collection. -/
theorem coll_rt {env : Env} {xs : List Val} (h1 : ElemsRT env xs) (t : Ty) (hw : wtList env t xs = true)
    (hf : (decide (sizeList env t xs = (encList env t xs).length) && faithfulElems env t xs) = true)
    (hl : (encLen (sizeList env t xs) ++ encList env t xs).length < 2 ^ 64) :
    sizeList env t xs = (encElems (enc env false t) xs).length ∧
    (encElems (enc env false t) xs).length < 2 ^ 64 ∧
    (∀ x ∈ xs, ∀ s, decode env false t (enc env false t x ++ s) = .ok x s) ∧
    (∀ x ∈ xs, enc env false t x ≠ []) := by
  simp only [Bool.and_eq_true, decide_eq_true_eq] at hf
  rw [List.length_append] at hl
  have := h1 t hw hf.2 (by omega)
  rw [encList_eq] at hf hl
  exact ⟨hf.1, by omega, fun x hx => (this x hx).1, fun x hx => (this x hx).2⟩

/-- The window of a map. -/
theorem map_rt {env : Env} {es : List (Val × Val)} (h2 : EntriesRT env (es.map toPair)) (k w : Ty)
    (hw : wtEntries env k w (es.map toPair) = true)
    (hf : (decide (sizeEntries env k w (es.map toPair) = (encEntries env k w (es.map toPair)).length) &&
      faithfulEntries env k w (es.map toPair)) = true)
    (hl : (encLen (sizeEntries env k w (es.map toPair)) ++ encEntries env k w (es.map toPair)).length < 2 ^ 64)
    (s : Bytes) :
    let body := encElems (fun e : Val × Val => enc env false k e.1 ++ enc env false w e.2) es
    encLen (sizeEntries env k w (es.map toPair)) = encLen body.length ∧ body.length < 2 ^ 64 ∧
      decWindow (decEntry (decode env false k) (decode env false w)) body s = .ok es s := by
  simp only [Bool.and_eq_true, decide_eq_true_eq] at hf
  rw [List.length_append] at hl
  have h := h2 k w hw hf.2 (by omega)
  rw [encEntries_eq] at hf hl
  refine ⟨by rw [hf.1], by omega, ?_⟩
  apply decWindow_enc
  · intro e he s
    have := h e.1 e.2 (List.mem_map.2 ⟨e, he, rfl⟩)
    exact decEntry_enc _ _ (enc env false k) (enc env false w) e.1 e.2 this.1 this.2.1 s
  · intro e he
    exact (h e.1 e.2 (List.mem_map.2 ⟨e, he, rfl⟩)).2.2

theorem rt_list {env : Env} {xs : List Val} (h1 : ElemsRT env xs) (h2 : EntriesRT env xs)
    (h3 : TupleRT env xs) (root : Bool) (t : Ty) (hc : core t) : RT env (.list xs) root t := by
  cases t with
  | prim p => exact rt_prim _ root p
  | inst t => exact hc.elim
  | vec t =>
    intro hw hf hl s
    rw [wt.eq_def] at hw; simp only [Ty.nzOk, Ty.isNz, Ty.strip, Bool.not_false, Bool.true_or, Bool.and_self, Bool.true_and] at hw
    rw [faithful.eq_def] at hf; simp only [Ty.strip] at hf
    rw [enc.eq_def] at hl ⊢; simp only [Ty.strip] at hl ⊢
    obtain ⟨a, b, c, d⟩ := coll_rt h1 t hw hf hl
    unfold decode at c ⊢
    rw [decTy]; dsimp only
    rw [encList_eq, a, List.append_assoc, decVec, decPrefixed_enc _ _ _ b, decWindow_enc _ _ _ _ c d]
    rfl
  | hashSet t =>
    intro hw hf hl s
    rw [wt.eq_def] at hw; simp only [Ty.nzOk, Ty.isNz, Ty.strip, Bool.not_false, Bool.true_or, Bool.and_self, Bool.true_and,
      Bool.and_eq_true, decide_eq_true_eq] at hw
    rw [faithful.eq_def] at hf; simp only [Ty.strip] at hf
    rw [enc.eq_def] at hl ⊢; simp only [Ty.strip] at hl ⊢
    obtain ⟨a, b, c, d⟩ := coll_rt h1 t hw.1 hf hl
    unfold decode at c ⊢
    rw [decTy]; dsimp only
    rw [encList_eq, a, List.append_assoc, decHashSet, decPrefixed_enc _ _ _ b, decWindow_enc _ _ _ _ c d,
      Res.map_ok, toSet_of_nodup _ hw.2]
    rfl
  | array t n =>
    intro hw hf hl s
    rw [wt.eq_def] at hw; simp only [Ty.nzOk, Ty.isNz, Ty.strip, Bool.not_false, Bool.true_or, Bool.and_self, Bool.true_and,
      Bool.and_eq_true, decide_eq_true_eq] at hw
    rw [faithful.eq_def] at hf; simp only [Ty.strip] at hf
    rw [enc.eq_def] at hl ⊢; simp only [Ty.strip] at hl ⊢
    obtain ⟨a, b, c, d⟩ := coll_rt h1 t hw.2 hf hl
    unfold decode at c ⊢
    have := decodeUpTo_enc _ (enc env false t) xs c d []
    rw [List.append_nil] at this
    rw [decTy]; dsimp only
    rw [encList_eq, a, List.append_assoc, decArray, decPrefixed_enc _ _ _ b, ← hw.1, this,
      Res.bind_ok, if_pos rfl]
    rfl
  | hashMap k w =>
    intro hw hf hl s
    rw [wt.eq_def] at hw; simp only [Ty.nzOk, Ty.isNz, Ty.strip, Bool.not_false, Bool.true_or, Bool.and_self, Bool.true_and,
      Bool.and_eq_true, decide_eq_true_eq] at hw
    rw [faithful.eq_def] at hf; simp only [Ty.strip] at hf
    rw [enc.eq_def] at hl ⊢; simp only [Ty.strip] at hl ⊢
    obtain ⟨es, rfl⟩ := wtEntries_pairs hw.1
    obtain ⟨a, b, c⟩ := map_rt h2 k w hw.1 hf hl s
    unfold decode at c ⊢
    rw [keys_map] at hw
    rw [decTy]; dsimp only
    rw [encEntries_eq, a, List.append_assoc, decHashMap, decPrefixed_enc _ _ _ b, c, Res.map_ok,
      toMap_of_nodup _ hw.2]
    rfl
  | tuple ts =>
    intro hw hf hl s
    rw [wt.eq_def] at hw; simp only [Ty.nzOk, Ty.isNz, Ty.strip, Bool.not_false, Bool.true_or, Bool.and_self, Bool.true_and,
      Bool.and_eq_true, decide_eq_true_eq] at hw
    rw [faithful.eq_def] at hf; simp only [Ty.strip] at hf
    unfold decode
    rw [decTy, if_pos hw.1]
    cases root with
    | false =>
      rw [enc.eq_def] at hl ⊢; simp only [Ty.strip] at hl ⊢
      simp only [Bool.false_eq_true, if_false]
      rw [h3 ts hw.2 hf hl s, Res.map_ok]
    | true =>
      rw [enc.eq_def] at hl ⊢; simp only [Ty.strip, Buf.encTuple, List.length_append] at hl ⊢
      simp only [if_true]
      rw [List.append_assoc, encLen, decUint_enc (by omega), Res.bind_ok, h3 ts hw.2 hf (by omega) s, Res.map_ok]
  | nonZero t =>
    cases t with
    | prim p => exact rt_nzPrim _ root p
    | vec t =>
      intro hw hf hl s
      have hne : xs ≠ [] := by
        have := (wt_nz hw).2
        rintro rfl
        simp [Val.nonzero] at this
      rw [wt.eq_def] at hw
      simp only [Ty.nzOk, Ty.isNz, Ty.strip, Bool.and_eq_true] at hw
      rw [faithful.eq_def] at hf; simp only [Ty.strip] at hf
      rw [enc.eq_def] at hl ⊢; simp only [Ty.strip] at hl ⊢
      obtain ⟨a, b, c, d⟩ := coll_rt h1 t hw.2 hf hl
      unfold decode at c ⊢
      have hb : encElems (enc env false t) xs ≠ [] := by
        cases xs with
        | nil => exact absurd rfl hne
        | cons x xs => simp [encElems, d x (List.mem_cons_self ..)]
      rw [decTy]; dsimp only
      rw [encList_eq, a, List.append_assoc, decNonZeroVec, decPrefixedNz_enc _ _ _ b, if_neg hb,
        decWindow_enc _ _ _ _ c d, Res.bind_ok, nzUnwrap, if_neg (by simpa using hne)]
      rfl
    | hashSet t =>
      intro hw hf hl s
      have hne : xs ≠ [] := by
        have := (wt_nz hw).2
        rintro rfl
        simp [Val.nonzero] at this
      rw [wt.eq_def] at hw
      simp only [Ty.nzOk, Ty.isNz, Ty.strip, Bool.and_eq_true, decide_eq_true_eq] at hw
      rw [faithful.eq_def] at hf; simp only [Ty.strip] at hf
      rw [enc.eq_def] at hl ⊢; simp only [Ty.strip] at hl ⊢
      obtain ⟨a, b, c, d⟩ := coll_rt h1 t hw.2.1 hf hl
      unfold decode at c ⊢
      have hb : encElems (enc env false t) xs ≠ [] := by
        cases xs with
        | nil => exact absurd rfl hne
        | cons x xs => simp [encElems, d x (List.mem_cons_self ..)]
      rw [decTy]; dsimp only
      rw [encList_eq, a, List.append_assoc, decNonZeroHashSet, decPrefixedNz_enc _ _ _ b, if_neg hb,
        decWindow_enc _ _ _ _ c d, Res.bind_ok, toSet_of_nodup _ hw.2.2, nzUnwrap, if_neg (by simpa using hne)]
      rfl
    | hashMap k w =>
      intro hw hf hl s
      have hne : xs ≠ [] := by
        have := (wt_nz hw).2
        rintro rfl
        simp [Val.nonzero] at this
      rw [wt.eq_def] at hw
      simp only [Ty.nzOk, Ty.isNz, Ty.strip, Bool.and_eq_true, decide_eq_true_eq] at hw
      rw [faithful.eq_def] at hf; simp only [Ty.strip] at hf
      rw [enc.eq_def] at hl ⊢; simp only [Ty.strip] at hl ⊢
      obtain ⟨es, rfl⟩ := wtEntries_pairs hw.2.1
      obtain ⟨a, b, c⟩ := map_rt h2 k w hw.2.1 hf hl s
      have hne' : es ≠ [] := by rintro rfl; exact hne rfl
      have hb : encElems (fun e : Val × Val => enc env false k e.1 ++ enc env false w e.2) es ≠ [] := by
        intro h0
        rw [h0] at c
        unfold decWindow at c
        simp [decodeMany] at c
        exact hne' c
      unfold decode at c ⊢
      rw [keys_map] at hw
      rw [decTy]; dsimp only
      rw [encEntries_eq, a, List.append_assoc, decNonZeroHashMap, decPrefixedNz_enc _ _ _ b, if_neg hb,
        c, Res.bind_ok, toMap_of_nodup _ hw.2.2, nzUnwrap, if_neg (by simpa using hne')]
      rfl
    | _ =>
      intro hw
      have := (wt_nz hw).1
      simp [Ty.nzArg] at this
  | _ =>
    intro hw
    rw [wt.eq_def] at hw
    simp [Ty.strip] at hw

theorem decode_ext (env : Env) (root : Bool) (name : List String) (args : List Ty) :
    decode env root (.ext name args) =
      match env name with
      | some d => decDef (decode env true) args d
      | none => fun _ => .panic := by
  have := decodeExt_eq env name args
  unfold decode at this ⊢; rw [decTy]; exact this

/-- Bodies of structs and variants. -/
theorem rt_body {env : Env} {vs : List Val} (h4 : FieldsRT env vs) (fs : Fields) (args : List Ty)
    (hok : FieldsOk fs.fields) (hu : fs.unitOk = true)
    (hw : wtFields env (fs.subst args).fields vs = true)
    (hf : faithfulFields env (fs.subst args).fields vs = true) (b : Bytes)
    (hb : b = if fs.kind = .unit then []
      else encFields env (fs.subst args).fields vs ++ encodeU (BitVec.ofNat 32 endMarker))
    (hl : b.length < 2 ^ 64) (s : Bytes) :
    decFields (decode env true) (fs.subst args) (b ++ s) = .ok vs s := by
  by_cases hk : fs.kind = .unit
  · rw [if_pos hk] at hb
    subst hb
    have hfs : fs.fields = [] := by
      simpa [Fields.unitOk, hk] using hu
    have : (fs.subst args).fields = [] := by simp [Fields.subst, hfs]
    rw [this] at hw
    cases vs with
    | nil =>
      unfold decFields
      rw [if_pos (show (fs.subst args).kind = .unit from hk)]
      rfl
    | cons v vs => simp [wtFields] at hw
  · rw [if_neg hk] at hb
    subst hb
    rw [List.length_append] at hl
    exact decFields_enc (fs.subst args) (subst_idOk hok) hk hw (h4 _ hw hf (by omega)) s

theorem rt_struct {env : Env} (hE : EnvOk env) {vs : List Val} (h4 : FieldsRT env vs) (root : Bool) (t : Ty)
    (hc : core t) : RT env (.struct vs) root t := by
  cases t with
  | prim p => exact rt_prim _ root p
  | inst t => exact hc.elim
  | nonZero t => intro hw; simpa [Val.nonzero] using (wt_nz hw).2
  | ext name args =>
    intro hw hf hl s
    rw [wt.eq_def] at hw
    simp only [Ty.nzOk, Ty.isNz, Ty.strip, Bool.not_false, Bool.true_or, Bool.and_self, Bool.true_and] at hw
    rw [faithful.eq_def] at hf; simp only [Ty.strip] at hf
    rw [enc.eq_def] at hl ⊢; simp only [Ty.strip] at hl ⊢
    rw [decode_ext]
    cases henv : env name with
    | none => simp [henv] at hw
    | some d =>
      cases d with
      | enum vars => simp [henv] at hw
      | struct fs =>
        simp only [henv, Bool.and_eq_true] at hw hf hl ⊢
        simp only [decDef]
        rw [rt_body h4 fs args (hE _ _ henv) hw.1 hw.2 hf _ rfl hl s]
        rfl
  | _ =>
    intro hw
    rw [wt.eq_def] at hw
    simp [Ty.strip] at hw

theorem findIdx_variant {vars : List Variant} (hnd : (vars.map (·.id)).Nodup) {i : Nat} {var : Variant}
    (hi : vars[i]? = some var) : vars.findIdx? (fun v => v.id == var.id) = some i := by
  induction vars generalizing i with
  | nil => simp at hi
  | cons v vs ih =>
    rw [List.map_cons, List.nodup_cons] at hnd
    cases i with
    | zero =>
      simp at hi
      subst hi
      simp [List.findIdx?_cons]
    | succ j =>
      rw [List.getElem?_cons_succ] at hi
      have : v.id ≠ var.id := by
        intro he
        exact hnd.1 (List.mem_map.2 ⟨var, List.mem_of_getElem? hi, he.symm⟩)
      simp [List.findIdx?_cons, this, ih hnd.2 hi]

theorem rt_enum {env : Env} (hE : EnvOk env) {i : Nat} {vs : List Val} (h4 : FieldsRT env vs) (root : Bool) (t : Ty)
    (hc : core t) : RT env (.enum i vs) root t := by
  cases t with
  | prim p => exact rt_prim _ root p
  | inst t => exact hc.elim
  | nonZero t => intro hw; simpa [Val.nonzero] using (wt_nz hw).2
  | ext name args =>
    intro hw hf hl s
    rw [wt.eq_def] at hw
    simp only [Ty.nzOk, Ty.isNz, Ty.strip, Bool.not_false, Bool.true_or, Bool.and_self, Bool.true_and] at hw
    rw [faithful.eq_def] at hf; simp only [Ty.strip] at hf
    rw [enc.eq_def] at hl ⊢; simp only [Ty.strip] at hl ⊢
    rw [decode_ext]
    cases henv : env name with
    | none => simp [henv] at hw
    | some d =>
      cases d with
      | struct fs => simp [henv] at hw
      | enum vars =>
        have hok := hE _ _ henv
        cases hv : vars[i]? with
        | none => simp [henv, hv] at hw
        | some var =>
          simp only [henv, hv, Bool.and_eq_true] at hw hf hl ⊢
          simp only [decDef]
          rw [List.length_append] at hl
          rw [List.append_assoc, encVariantId, decVariantId, decUint_enc (by omega), Res.bind_ok,
            findIdx_variant hok.1 hv]
          simp only [hv]
          rw [rt_body h4 var.fields args (hok.2 _ (List.mem_of_getElem? hv)) hw.1 hw.2 hf _ rfl (by omega) s]
          rfl
  | _ =>
    intro hw
    rw [wt.eq_def] at hw
    simp [Ty.strip] at hw

/-- Round trip of a value and of what a `Some` or an entry holds (so that fields and entries can use the
induction hypothesis of the value containing them). -/
def RT2 (env : Env) (v : Val) : Prop :=
  (∀ root t, RT env v root t) ∧ (∀ x, v = .some x → ∀ root t, RT env x root t) ∧
  (∀ a b, v = .pair a b → (∀ root t, RT env a root t) ∧ ∀ root t, RT env b root t)

theorem rtField_head {env : Env} {f : Field} {v : Val}
    (hf : (match f.ty, v with
     | .option t, .some v => faithful env t v
     | .option _, _ => true
     | t, v => faithful env t v) = true) (h : RT2 env v) (hw : wt env f.ty v = true)
    (hl : ((chunk env f v).flatMap (fun e => encId e.1.id ++ e.1.body)).length < 2 ^ 64)
    {e : WireField × Val} (he : e ∈ chunk env f v) (s : Bytes) :
    decode env true (fieldTy f.ty) (e.1.body ++ s) = .ok e.2 s := by
  rcases chunk_cases env f v with ⟨t, ht, ⟨y, rfl, hch⟩ | ⟨hx, hch⟩⟩ | ⟨ho, hft, hch⟩
  · rw [hch] at he hl
    simp only [List.mem_cons, List.not_mem_nil, or_false] at he
    simp only [List.flatMap_cons, List.flatMap_nil, List.append_nil, List.length_append] at hl
    subst he
    rw [ht] at hw hf ⊢
    rcases wt_option_cases hw with h0 | ⟨z, hz, hwz⟩
    · simp at h0
    · simp only [Val.some.injEq] at hz
      subst hz
      exact h.2.1 _ rfl true t hwz hf (by omega) s
  · rw [hch] at he
    simp at he
  · rw [hch] at he hl
    simp only [List.mem_cons, List.not_mem_nil, or_false] at he
    simp only [List.flatMap_cons, List.flatMap_nil, List.append_nil, List.length_append] at hl
    subst he
    rw [hft]
    refine h.1 true f.ty hw ?_ (by omega) s
    cases hty : f.ty <;> rw [hty] at ho <;> simp only [isOption, Bool.true_eq_false] at ho <;>
      simp only [hty] at hf <;> exact hf

mutual
theorem rt2 {env : Env} (hE : EnvOk env) : ∀ v : Val, RT2 env v
  | .bool b => ⟨rt_of_core (rt_leaf (by simp) (by simp) (by simp) (by simp)), by simp, by simp⟩
  | .num b => ⟨rt_of_core (rt_leaf (by simp) (by simp) (by simp) (by simp)), by simp, by simp⟩
  | .str b => ⟨rt_of_core (rt_leaf (by simp) (by simp) (by simp) (by simp)), by simp, by simp⟩
  | .bytes b => ⟨rt_of_core (rt_leaf (by simp) (by simp) (by simp) (by simp)), by simp, by simp⟩
  | .none => ⟨rt_of_core (rt_leaf (by simp) (by simp) (by simp) (by simp)), by simp, by simp⟩
  | .pair a b => ⟨rt_of_core (rt_leaf (by simp) (by simp) (by simp) (by simp)), by simp, by
      intro a' b' h
      simp only [Val.pair.injEq] at h
      obtain ⟨rfl, rfl⟩ := h
      exact ⟨(rt2 hE a).1, (rt2 hE b).1⟩⟩
  | .some x => ⟨rt_of_core (rt_some (rt2 hE x).1), by
      intro y h
      simp only [Val.some.injEq] at h
      subst h
      exact (rt2 hE x).1, by simp⟩
  | .list xs => ⟨rt_of_core (rt_list (rtLists hE xs).1 (rtLists hE xs).2.1 (rtLists hE xs).2.2.1),
      by simp, by simp⟩
  | .struct vs => ⟨rt_of_core (rt_struct hE (rtLists hE vs).2.2.2), by simp, by simp⟩
  | .enum i vs => ⟨rt_of_core (rt_enum hE (rtLists hE vs).2.2.2), by simp, by simp⟩
theorem rtLists {env : Env} (hE : EnvOk env) :
    ∀ xs : List Val, ElemsRT env xs ∧ EntriesRT env xs ∧ TupleRT env xs ∧ FieldsRT env xs
  | [] => by
    refine ⟨?_, ?_, ?_, ?_⟩
    · intro t _ _ _ x hx; simp at hx
    · intro k w _ _ _ a b hx; simp at hx
    · intro ts hw hf hl s
      cases ts with
      | nil => rfl
      | cons t ts => simp [wtTuple] at hw
    · intro fs hw hf hl e he
      cases fs <;> simp [chunks] at he
  | v :: vs => by
    have hv := rt2 hE v
    have hvs := rtLists hE vs
    refine ⟨?_, ?_, ?_, ?_⟩
    · intro t hw hf hl x hx
      simp only [wtList, Bool.and_eq_true] at hw
      simp only [faithfulElems, Bool.and_eq_true] at hf
      simp only [encList, List.length_append] at hl
      rcases List.mem_cons.1 hx with h | h
      · subst h
        refine ⟨hv.1 false t hw.1 hf.1.2 (by omega), ?_⟩
        simpa using hf.1.1
      · exact hvs.1 t hw.2 hf.2 (by omega) x h
    · intro k w hw hf hl a b hx
      cases v with
      | pair a' b' =>
        simp only [wtEntries, Bool.and_eq_true] at hw
        simp only [faithfulEntries, Bool.and_eq_true] at hf
        simp only [encEntries, List.length_append] at hl
        rcases List.mem_cons.1 hx with h | h
        · simp only [Val.pair.injEq] at h
          obtain ⟨rfl, rfl⟩ := h
          have := hv.2.2 _ _ rfl
          refine ⟨this.1 false k hw.1.1 hf.1.1.2 (by omega), this.2 false w hw.1.2 hf.1.2 (by omega), ?_⟩
          intro he
          rw [he] at hf
          simp at hf
        · exact hvs.2.1 k w hw.2 hf.2 (by omega) a b h
      | _ => simp [wtEntries] at hw
    · intro ts hw hf hl s
      cases ts with
      | nil => simp [wtTuple] at hw
      | cons t ts =>
        simp only [wtTuple, Bool.and_eq_true] at hw
        simp only [faithfulTuple, Bool.and_eq_true] at hf
        simp only [encTuple, List.length_append] at hl
        have h1 := hv.1 false t hw.1 hf.1 (by omega) (encTuple env ts vs ++ s)
        have h2 := hvs.2.2.1 ts hw.2 hf.2 (by omega) s
        unfold decode at h1
        simp only [encTuple, decTuple, List.append_assoc]
        rw [h1, Res.bind_ok, h2, Res.map_ok]
    · intro fs hw hf hl e he
      cases fs with
      | nil => simp [chunks] at he
      | cons f fs =>
        simp only [wtFields, Bool.and_eq_true] at hw
        rw [encFields_cons, List.length_append] at hl
        rw [chunks, List.mem_append] at he
        rw [faithfulFields.eq_def] at hf
        simp only [Bool.and_eq_true] at hf
        rcases he with he | he
        · exact ⟨f, List.mem_cons_self .., (chunk_id he).symm,
            rtField_head hf.1 hv hw.1 (by omega) he⟩
        · obtain ⟨g, hg, h⟩ := hvs.2.2.2 fs hw.2 hf.2 (by omega) e he
          exact ⟨g, List.mem_cons_of_mem _ hg, h⟩
end

/-- Round trip for all values. -/
theorem rt {env : Env} (hE : EnvOk env) (v : Val) (root : Bool) (t : Ty) : RT env v root t := (rt2 hE v).1 root t

end Mabo.Codegen
