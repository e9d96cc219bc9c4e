import Verif.Spec.Wire
import Verif.CodegenLemmas
import Verif.Props.Buf
/-! The field loop of generated decoders on messages made of encoded fields. -/
namespace Mabo.Codegen
open Mabo.Buf Mabo.Varint Mabo.Schema Mabo.Spec

/-- `fieldLoop` with enough fuel. -/
def loop (dec : Ty → Dec Val) (fs : List Field) (slots : List (Option Val)) : Dec (List (Option Val)) :=
  fun r => fieldLoop dec fs (r.length + 1) slots r

theorem loop_eq {dec : Ty → Dec Val} (hl : ∀ t, Local (dec t)) (fs : List Field)
    (slots : List (Option Val)) (r : Bytes) :
    loop dec fs slots r = (decId r).bind fun id r =>
      if id.value = BitVec.ofNat 32 endMarker then .ok slots r
      else
        match fs.findIdx? (fun f => f.id == id.value) with
        | some i =>
          match fs[i]? with
          | some f => (dec (fieldTy f.ty) r).bind fun v r => loop dec fs (slots.set i (some v)) r
          | none => .panic
        | none => (decSkip id.encoding r).bind fun _ r => loop dec fs slots r := by
  unfold loop
  simp only [fieldLoop]
  cases hd : decId r with
  | ok id r1 =>
    have hc := decId_consumes hd
    simp only [Res.bind_ok]
    split
    · rfl
    · cases hfi : fs.findIdx? (fun f => f.id == id.value) with
      | none =>
        simp only
        cases hv : decSkip id.encoding r1 with
        | ok v r2 =>
          have := (decSkip_local _).suffix hv
          simp only [Res.bind_ok]
          exact fieldLoop_agree hl fs r.length (r2.length + 1) _ r2 (by omega) (by omega) fun t => Agree.rfl
        | _ => rfl
      | some i =>
        simp only
        cases hf : fs[i]? with
        | none => rfl
        | some f =>
          simp only
          cases hv : dec (fieldTy f.ty) r1 with
          | ok v r2 =>
            have := (hl _).suffix hv
            simp only [Res.bind_ok]
            exact fieldLoop_agree hl fs r.length (r2.length + 1) _ r2 (by omega) (by omega) fun t => Agree.rfl
          | _ => rfl
  | _ => rfl

theorem decFields_loop (dec : Ty → Dec Val) (fs : Fields) (r : Bytes) (hk : fs.kind ≠ .unit) :
    decFields dec fs r = (loop dec fs.fields (fs.fields.map fun _ => none) r).bind fun slots r =>
      match assigns fs.kind fs.fields slots with
      | .ok vs => .ok vs r
      | .error e => .err e := by
  unfold decFields loop
  rw [if_neg hk]
  rfl

theorem idOk_ne_end {id : BitVec 32} (h : idOk id) : id ≠ BitVec.ofNat 32 endMarker := by
  intro he
  have := h.1
  rw [he] at this
  simp [endMarker] at this

theorem decId_enc (id : FieldId) (h : idOk id.value) (s : Bytes) : decId (encId id ++ s) = .ok id s :=
  (Mabo.Props.C06_wire_roundtrip id h.2 s).1

theorem encId_length_pos (id : FieldId) : 0 < (encId id).length := encodeU_length_pos (by omega) _

/-- Index of the first field with the given number, for distinct numbers. -/
theorem findIdx_of_mem {fs : List Field} (hnd : (fs.map (·.id)).Nodup) {f : Field} (hf : f ∈ fs) :
    ∃ i, fs.findIdx? (fun g => g.id == f.id) = some i ∧ fs[i]? = some f := by
  induction fs with
  | nil => simp at hf
  | cons g gs ih =>
    rw [List.map_cons, List.nodup_cons] at hnd
    by_cases hg : g.id = f.id
    · have hgf : g = f := by
        rcases List.mem_cons.1 hf with h | h
        · exact h.symm
        · exact absurd (List.mem_map.2 ⟨f, h, hg.symm⟩) hnd.1
      subst hgf
      exact ⟨0, by simp [List.findIdx?_cons], by simp⟩
    · have hf' : f ∈ gs := by
        rcases List.mem_cons.1 hf with h | h
        · exact absurd (by rw [h]) hg
        · exact h
      obtain ⟨i, hi, hi'⟩ := ih hnd.2 hf'
      exact ⟨i + 1, by simp [List.findIdx?_cons, hg, hi], by simpa using hi'⟩

theorem findIdx_none {fs : List Field} {id : BitVec 32} (h : ∀ f ∈ fs, f.id ≠ id) :
    fs.findIdx? (fun g => g.id == id) = none := by
  rw [List.findIdx?_eq_none_iff]
  intro x hx
  simpa using h x hx

/-- Pointwise update of a lookup. -/
def upd {α : Type} (look : BitVec 32 → Option α) (id : BitVec 32) (v : α) : BitVec 32 → Option α :=
  fun i => if i = id then some v else look i

theorem set_map_look {fs : List Field} (hnd : (fs.map (·.id)).Nodup) {i : Nat} {f : Field}
    (hi : fs[i]? = some f) (look : BitVec 32 → Option Val) (v : Val) :
    (fs.map fun g => look g.id).set i (some v) = fs.map fun g => upd look f.id v g.id := by
  induction fs generalizing i with
  | nil => simp at hi
  | cons g gs ih =>
    rw [List.map_cons, List.nodup_cons] at hnd
    cases i with
    | zero =>
      simp only [List.length_cons, Nat.zero_lt_succ, getElem?_pos, List.getElem_cons_zero,
        Option.some.injEq] at hi
      subst hi
      simp only [List.map_cons, List.set_cons_zero, upd, if_true, List.cons.injEq, true_and]
      apply List.map_congr_left
      intro x hx
      rw [if_neg]
      intro he
      exact hnd.1 (List.mem_map.2 ⟨x, hx, he⟩)
    | succ j =>
      rw [List.getElem?_cons_succ] at hi
      simp only [List.map_cons, List.set_cons_succ]
      rw [ih hnd.2 hi]
      congr 1
      simp only [upd]
      rw [if_neg]
      intro he
      exact hnd.1 (List.mem_map.2 ⟨f, List.mem_of_getElem? hi, he.symm⟩)

theorem loop_end {dec : Ty → Dec Val} (hl : ∀ t, Local (dec t)) (fs : List Field)
    (slots : List (Option Val)) (s : Bytes) : loop dec fs slots (0 :: s) = .ok slots s := by
  rw [loop_eq hl]
  have : decId (0 :: s) = .ok ⟨BitVec.ofNat 32 endMarker, .varint⟩ s := by
    have h0 : encodeU (0#32) = [0] := by decide
    unfold decId
    have := decUint_enc (w := 32) (by omega) 0#32 s
    rw [h0] at this
    rw [List.cons_append, List.nil_append] at this
    rw [this]
    rfl
  rw [this]
  simp only [Res.bind_ok, if_true]

/-- One understood field. -/
theorem loop_step {dec : Ty → Dec Val} (hl : ∀ t, Local (dec t)) {fs : List Field}
    (hnd : (fs.map (·.id)).Nodup) (look : BitVec 32 → Option Val) {w : WireField} {v : Val}
    (hu : Understood dec fs w v) (s : Bytes) :
    loop dec fs (fs.map fun g => look g.id) (encId w.id ++ (w.body ++ s)) =
      loop dec fs (fs.map fun g => upd look w.id.value v g.id) s := by
  rw [loop_eq hl, decId_enc w.id hu.1]
  simp only [Res.bind_ok]
  rw [if_neg (idOk_ne_end hu.1)]
  rcases hu.2 with ⟨f, hf, hid, hd⟩ | ⟨hno, hs⟩
  · obtain ⟨i, hi, hi'⟩ := findIdx_of_mem hnd hf
    rw [← hid, hi]
    simp only [hi']
    rw [hd s, Res.bind_ok, set_map_look hnd hi']
  · rw [findIdx_none hno]
    simp only
    rw [hs s, Res.bind_ok]
    congr 1
    apply List.map_congr_left
    intro g hg
    unfold upd
    rw [if_neg (hno g hg)]

theorem lastVal_snoc_aux {α : Type} (m : List (WireField × α)) (look : BitVec 32 → Option α) (id : BitVec 32) :
    m.foldl (fun l e => upd l e.1.id.value e.2) look id = (lastVal m id).or (look id) := by
  induction m generalizing look with
  | nil => simp [lastVal]
  | cons e m ih =>
    rw [List.foldl_cons, ih]
    unfold lastVal
    by_cases h : e.1.id.value = id
    · rw [List.filter_cons_of_pos (by simpa using h)]
      rw [List.getLast?_cons]
      cases hq : (List.filter (fun e => e.1.id.value == id) m).getLast? with
      | none => simp [upd, h]
      | some x => simp
    · rw [List.filter_cons_of_neg (by simpa using h)]
      unfold upd
      rw [if_neg (fun he => h he.symm)]

theorem loop_wire {dec : Ty → Dec Val} (hl : ∀ t, Local (dec t)) {fs : List Field}
    (hnd : (fs.map (·.id)).Nodup) (m : List (WireField × Val))
    (hu : ∀ e ∈ m, Understood dec fs e.1 e.2) (look : BitVec 32 → Option Val) (s : Bytes) :
    loop dec fs (fs.map fun g => look g.id) (wireBytes (m.map (·.1)) ++ s) =
      loop dec fs (fs.map fun g => m.foldl (fun l e => upd l e.1.id.value e.2) look g.id) s := by
  induction m generalizing look with
  | nil => simp [wireBytes]
  | cons e m ih =>
    have he : wireBytes ((e :: m).map (·.1)) ++ s =
        encId e.1.id ++ (e.1.body ++ (wireBytes (m.map (·.1)) ++ s)) := by
      simp [wireBytes]
    rw [he, loop_step hl hnd look (hu e (List.mem_cons_self ..)),
      ih (fun x hx => hu x (List.mem_cons_of_mem _ hx))]
    rfl

theorem assigns_eq_assemble (kind : FieldKind) (look : BitVec 32 → Option Val) (fs : List Field) :
    assigns kind fs (fs.map fun g => look g.id) = assemble (kind == .named) look fs := by
  induction fs with
  | nil => rfl
  | cons f fs ih =>
    simp only [List.map_cons, assigns, assemble, ih]
    cases hl : look f.id with
    | some v => cases f.ty <;> rfl
    | none => cases f.ty <;> cases kind <;> rfl

/-- **Struct payloads.** Decoding a payload of understood fields assembles the last value found for each
field, and consumes exactly the payload. -/
theorem decFields_payload {dec : Ty → Dec Val} (hl : ∀ t, Local (dec t)) (fs : Fields)
    (hk : fs.kind ≠ .unit) (hnd : (fs.fields.map (·.id)).Nodup) (m : List (WireField × Val))
    (hu : ∀ e ∈ m, Understood dec fs.fields e.1 e.2) (s : Bytes) :
    decFields dec fs (payload (m.map (·.1)) ++ s) =
      match assemble (fs.kind == .named) (lastVal m) fs.fields with
      | .ok vs => .ok vs s
      | .error e => .err e := by
  rw [decFields_loop dec fs _ hk]
  unfold payload
  rw [List.append_assoc]
  have := loop_wire hl hnd m hu (fun _ => none) ([0] ++ s)
  rw [this, List.cons_append, List.nil_append, loop_end hl]
  simp only [Res.bind_ok]
  have h2 : (fun id => m.foldl (fun l e => upd l e.1.id.value e.2) (fun _ => none) id) = lastVal m := by
    funext id
    rw [lastVal_snoc_aux]; simp
  rw [assigns_eq_assemble fs.kind (fun id => m.foldl (fun l e => upd l e.1.id.value e.2) (fun _ => none) id), h2]

end Mabo.Codegen
