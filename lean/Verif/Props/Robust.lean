import Verif.RobustLemmas
import Verif.Props.RoundTrip
/-!
C20 (no panic, no endless loop on untrusted bytes) and C21 (decoding is local), for every schema and every
input.
-/
namespace Mabo.Props
open Mabo.Buf Mabo.Varint Mabo.Schema Mabo.Codegen Mabo.Spec

/-! ### C20 -/

/-- C20 (partial: the full claim, for every schema, is refuted below): for a schema without fixed-size arrays and
without zero-byte collection elements or type arguments, whose names resolve and whose tuples and `non_zero`
arguments are supported (`SafeEnv`, `safeTy` in `Spec/Safe.lean`), the generated decoder of a named type
returns `Ok` or `Err` on *every* input: it neither panics nor loops. -/
theorem C20_decode_total_partial (env : Env) (arity : List String → Nat) (hE : SafeEnv env arity) (name : List String)
    (args : List Ty) (h : safeTy env arity 0 (.ext name args) = true) (r : Bytes) :
    (∃ v r', decodeExt env name args r = .ok v r') ∨ ∃ e, decodeExt env name args r = .err e := by
  have := decode_fine hE false (.ext name args) h r
  unfold decode at this
  rw [decTy] at this
  cases hd : decodeExt env name args r with
  | ok v r' => exact .inl ⟨v, r', rfl⟩
  | err e => exact .inr ⟨e, rfl⟩
  | panic => exact absurd hd this.1
  | hang => exact absurd hd this.2

/-- The demo schema (structs, enum, generics, recursion, maps, tuples) is safe. -/
def demoArity : List String → Nat := fun n => if n == ["Pair"] then 2 else 0

theorem demo_safe : SafeEnv Demo.env demoArity := by
  intro n d hd
  obtain ⟨e, he, rfl, rfl⟩ := Demo.envOf_mem hd
  have key : ∀ e ∈ Demo.defs, ∀ fs ∈ Def.fieldLists e.2, ∀ f ∈ fs.fields,
      safeTy Demo.env demoArity (demoArity e.1) f.ty = true := by decide +kernel
  exact key e he

/-- So decoding a `Person` never panics, whatever the input. -/
theorem C20_example (r : Bytes) :
    (∃ v r', decodeExt Demo.env ["Person"] [] r = .ok v r') ∨ ∃ e, decodeExt Demo.env ["Person"] [] r = .err e :=
  C20_decode_total_partial _ _ demo_safe _ _ (by decide +kernel) r

/-- Refutation of the full C20, arrays: whatever the element type and the length `n + 1`, an array field whose
announced length is zero makes the decoder panic. -/
theorem C20_fails_for_arrays (t : Ty) (n : Nat) (s : Bytes) :
    decodeExt (Demo.envOf [(["S"], .struct ⟨.named, [⟨"a", .array t (n + 1), 1⟩]⟩)]) ["S"] [] (0x09 :: 0 :: s) = .panic := by
  have hS : Demo.envOf [(["S"], .struct ⟨.named, [⟨"a", .array t (n + 1), 1⟩]⟩)] ["S"] =
      some (.struct ⟨.named, [⟨"a", .array t (n + 1), 1⟩]⟩) := rfl
  generalize Demo.envOf [(["S"], .struct ⟨.named, [⟨"a", .array t (n + 1), 1⟩]⟩)] = env at hS
  rw [decodeExt_eq, hS]
  simp only [decDef]
  rw [decFields_loop _ _ _ (by simp [Fields.subst]), loop_eq (decode_locals env)]
  have hid : decId (0x09 :: 0 :: s) = .ok ⟨1, .lengthPrefixed⟩ (0 :: s) :=
    decId_enc ⟨1, .lengthPrefixed⟩ (by decide +kernel) (0 :: s)
  rw [hid]
  simp only [Res.bind_ok]
  rw [if_neg (by decide)]
  simp only [Fields.subst, List.map_cons, List.map_nil, Ty.subst]
  have hf : List.findIdx? (fun f : Field => f.id == (1 : BitVec 32)) [⟨"a", (t.subst []).array (n + 1), 1⟩] = some 0 := rfl
  rw [hf]
  simp only [List.length_cons, List.length_nil, Nat.zero_add, Nat.lt_add_one, getElem?_pos, List.getElem_cons_zero, fieldTy]
  have hd : decode env true ((t.subst []).array (n + 1)) (0 :: s) = .panic := by
    unfold decode
    rw [decTy]
    unfold decArray
    have h0 := decPrefixed_enc (fun body rest => (decodeUpTo (decTy (decodeExt env) false (t.subst [])) (n + 1) body).bind
      fun xs _ => if xs.length = n + 1 then Res.ok xs rest else Res.panic) [] s (by decide)
    have he : encLen ([] : Bytes).length ++ ([] ++ s) = 0 :: s := by
      have : encLen 0 = [0] := by decide
      simp [this]
    rw [he] at h0
    simp only [h0]
    simp [decodeUpTo, Res.map]
  rw [hd]
  rfl

/-- … unit elements: whatever the (positive) announced length, a vector of unit structs never finishes decoding
once that many bytes are there. -/
theorem C20_fails_for_unit_elements (b : UInt8) (body s : Bytes) (hl : (b :: body).length < 2 ^ 64) :
    decodeExt unitsEnv ["Units"] [] ([0x09] ++ (encLen (b :: body).length ++ (b :: body)) ++ s) = .hang := by
  have hU : unitsEnv ["Units"] = some (.struct ⟨.named, [⟨"items", .vec (.ext ["Empty"] []), 1⟩]⟩) := rfl
  rw [decodeExt_eq, hU]
  simp only [decDef]
  rw [decFields_loop _ _ _ (by simp [Fields.subst]), loop_eq (decode_locals _)]
  have hid : ∀ r, decId (0x09 :: r) = .ok ⟨1, .lengthPrefixed⟩ r := fun r =>
    decId_enc ⟨1, .lengthPrefixed⟩ (by decide +kernel) r
  have e1 : [0x09] ++ (encLen (b :: body).length ++ (b :: body)) ++ s =
      0x09 :: ((encLen (b :: body).length ++ (b :: body)) ++ s) := by simp
  rw [e1, hid]
  simp only [Res.bind_ok]
  rw [if_neg (by decide)]
  simp only [Fields.subst, List.map_cons, List.map_nil, Ty.subst, Ty.substList]
  have hf : List.findIdx? (fun f : Field => f.id == (1 : BitVec 32)) [⟨"items", .vec (.ext ["Empty"] []), 1⟩] = some 0 := rfl
  rw [hf]
  simp only [List.length_cons, List.length_nil, Nat.zero_add, Nat.lt_add_one, getElem?_pos, List.getElem_cons_zero, fieldTy]
  have hunit : ∀ r, decTy (decodeExt unitsEnv) false (.ext ["Empty"] []) r = .ok (.struct []) r := by
    intro r
    rw [decTy, decodeExt_eq]
    rfl
  have hmany : ∀ n (c : UInt8) (cs : Bytes), decodeMany (decTy (decodeExt unitsEnv) false (.ext ["Empty"] [])) n (c :: cs) = .hang := by
    intro n c cs
    induction n with
    | zero => rfl
    | succ n ih => rw [decodeMany, hunit, Res.bind_ok, ih]; rfl
  have hd : decode unitsEnv true (.vec (.ext ["Empty"] [])) ((encLen (b :: body).length ++ (b :: body)) ++ s) = .hang := by
    unfold decode
    rw [decTy]
    unfold decVec
    rw [List.append_assoc]
    simp only [decPrefixed_enc _ (b :: body) s hl]
    unfold decWindow
    rw [hmany]
    rfl
  simp only [List.length_cons] at hd
  rw [hd]
  rfl

/-- `hang` is the right word: if the element decoder succeeds without consuming anything, the loop
`while r.has_remaining()` runs for any number `n` of iterations without reaching an end. -/
theorem C20_hang_is_divergence {α : Type} (d : Dec α) (b : UInt8) (r : Bytes) (v : α) (h : d (b :: r) = .ok v (b :: r))
    (n : Nat) : decodeMany d n (b :: r) = .hang := by
  induction n with
  | zero => rfl
  | succ n ih => rw [decodeMany, h, Res.bind_ok, ih]; rfl

/-- Conversely the bound used by the model is harmless: if the element decoder consumes at least one byte per
element, the loop has the same outcome for every bound from the number of available bytes on. -/
theorem C20_loop_bound_irrelevant {α : Type} (d : Dec α) (hc : ∀ r v r', d r = .ok v r' → r'.length < r.length)
    (r : Bytes) (n m : Nat) (hn : r.length ≤ n) (hm : r.length ≤ m) : decodeMany d n r = decodeMany d m r := by
  induction n generalizing r m with
  | zero => cases r with
    | nil => cases m <;> rfl
    | cons b r => simp at hn
  | succ n ih =>
    cases r with
    | nil => cases m <;> rfl
    | cons b r =>
      cases m with
      | zero => simp at hm
      | succ m =>
        rw [decodeMany, decodeMany]
        cases hd : d (b :: r) with
        | ok v s =>
          have := hc _ _ _ hd
          simp only [Res.bind_ok]
          rw [ih s m (by omega) (by omega)]
        | _ => rfl

/-! ### C21 -/

/-- C21: a successful decoder consumed a prefix `c` of the input, and what it returns depends on that prefix
alone: with any other bytes behind `c` the result is the same and exactly these bytes remain. -/
theorem C21_consumes_prefix (env : Env) (name : List String) (args : List Ty) (r r' : Bytes) (v : Val)
    (h : decodeExt env name args r = .ok v r') :
    ∃ c, r = c ++ r' ∧ ∀ s, decodeExt env name args (c ++ s) = .ok v s :=
  decodeExt_local env name args r v r' h

/-- C21: appending bytes changes nothing but the remainder. -/
theorem C21_append (env : Env) (name : List String) (args : List Ty) (r r' s : Bytes) (v : Val)
    (h : decodeExt env name args r = .ok v r') : decodeExt env name args (r ++ s) = .ok v (r' ++ s) := by
  obtain ⟨c, rfl, hc⟩ := C21_consumes_prefix env name args r r' v h
  rw [List.append_assoc]; exact hc _

/-- C21: if a message decodes completely, none of its strict prefixes decodes. -/
theorem C21_no_strict_prefix (env : Env) (name : List String) (args : List Ty) (msg p q : Bytes) (v : Val)
    (h : decodeExt env name args msg = .ok v []) (hp : msg = p ++ q) (hq : q ≠ []) (v' : Val) (r' : Bytes) :
    decodeExt env name args p ≠ .ok v' r' := by
  intro hd
  have := C21_append env name args p r' q v' hd
  rw [← hp, h] at this
  simp only [Res.ok.injEq] at this
  exact hq (List.append_eq_nil_iff.1 this.2.symm).2

/-- C21 for encoded values: the encoding of a value, cut anywhere, is never accepted. -/
theorem C21_truncated_encoding_rejected (env : Env) (hE : EnvOk env) (name : List String) (args : List Ty) (v : Val)
    (hw : wt env (.ext name args) v = true) (hf : faithful env (.ext name args) v = true)
    (hl : (enc env false (.ext name args) v).length < 2 ^ 64) (k : Nat)
    (hk : k < (enc env false (.ext name args) v).length) (v' : Val) (r' : Bytes) :
    decodeExt env name args ((enc env false (.ext name args) v).take k) ≠ .ok v' r' := by
  have h := C13_roundtrip env hE name args v hw hf hl []
  rw [List.append_nil] at h
  refine C21_no_strict_prefix env name args _ _ ((enc env false (.ext name args) v).drop k) v h
    (List.take_append_drop k _).symm ?_ v' r'
  intro he
  have : ((enc env false (.ext name args) v).drop k).length = 0 := by rw [he]; rfl
  rw [List.length_drop] at this
  omega

/-- C21 for arbitrary types in field or element position. -/
theorem C21_any_type (env : Env) (root : Bool) (t : Ty) (r r' : Bytes) (v : Val) (h : decode env root t r = .ok v r') :
    ∃ c, r = c ++ r' ∧ ∀ s, decode env root t (c ++ s) = .ok v s :=
  decode_local env root t r v r' h

example : decodeExt Demo.env ["Address"] [] ([0x09, 1, 97, 0] ++ [1, 2, 3]) = .ok (.struct [.str "a", .none]) [1, 2, 3] := by
  decide +kernel

end Mabo.Props
