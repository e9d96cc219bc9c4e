import Verif.ExactLemmas
import Verif.Demo
/-!
C13 (generated code round trips) and C14 (`size()`), for every schema, definition and value.

Vocabulary: `wt env t v` — `v` is a value of the Rust type generated for `t` (`Verif/Schema.lean`);
`enc env false (.ext name args) v` — bytes written by `Encode::encode`; `decodeExt env name args` —
`Decode::decode`; `size env t v` — `Size::size`. `EnvOk` — ids unique, non-zero, below 2^29
(`Spec/Wire.lean`).
-/
namespace Mabo.Props
open Mabo.Buf Mabo.Varint Mabo.Schema Mabo.Codegen Mabo.Spec

/-! ### C13 -/

/-- C13: what the generated encoder writes for a value of a named type is decoded by the generated decoder
to the same value, leaving everything behind it untouched. Side conditions: usable ids; every collection
inside announces the number of bytes its elements really occupy and has no zero-byte elements
(`faithful`); the encoding is shorter than 2^64. -/
theorem C13_roundtrip (env : Env) (hE : EnvOk env) (name : List String) (args : List Ty) (v : Val)
    (hw : wt env (.ext name args) v = true) (hf : faithful env (.ext name args) v = true)
    (hl : (enc env false (.ext name args) v).length < 2 ^ 64) (s : Bytes) :
    decodeExt env name args (enc env false (.ext name args) v ++ s) = .ok v s :=
  rt hE v false (.ext name args) hw hf hl s

/-- C13 for any type in field position (`root = true`) or element position, not only named ones. -/
theorem C13_roundtrip_any_type (env : Env) (hE : EnvOk env) (root : Bool) (t : Ty) (v : Val)
    (hw : wt env t v = true) (hf : faithful env t v = true) (hl : (enc env root t v).length < 2 ^ 64)
    (s : Bytes) : decode env root t (enc env root t v ++ s) = .ok v s :=
  rt hE v root t hw hf hl s

/-- C13, schema-level: for schemas whose collections only contain types without collections (`ShallowEnv`,
`PlainEnv`, `shallowTy` in `Spec/Fragment.lean`) every value round trips, with no condition on the value
except that its encoding is shorter than 2^64. -/
theorem C13_roundtrip_shallow_schema (env : Env) (hE : EnvOk env) (S T : List String → Bool)
    (hS : PlainEnv env S) (hT : ShallowEnv env S T) (name : List String) (args : List Ty)
    (hn : T name = true) (ha : elemTys env S args = true) (v : Val) (hw : wt env (.ext name args) v = true)
    (hl : (enc env false (.ext name args) v).length < 2 ^ 64) (s : Bytes) :
    decodeExt env name args (enc env false (.ext name args) v ++ s) = .ok v s :=
  rt hE v false (.ext name args) hw
    (shallow_faithful hE hS hT (by simp [shallowTy, hn, ha]) hw hl) hl s

/-- C13 in observable terms: whenever `size()` reports the real number of bytes and no collection has
zero-byte elements, the value round trips. -/
theorem C13_roundtrip_when_size_exact (env : Env) (hE : EnvOk env) (name : List String) (args : List Ty)
    (v : Val) (hw : wt env (.ext name args) v = true) (hn : noEmpty env (.ext name args) v = true)
    (hx : size env (.ext name args) v = (enc env false (.ext name args) v).length)
    (hl : (enc env false (.ext name args) v).length < 2 ^ 64) (s : Bytes) :
    decodeExt env name args (enc env false (.ext name args) v ++ s) = .ok v s :=
  rt hE v false (.ext name args) hw
    (exact_faithful hE hw hn ((((sz2 hE v).1 _ hw hn hl).2.1).1 hx) hl) hl s

/-- The generated decoders satisfy the recursion equation of the generated Rust code: a named type is decoded
by its definition, which calls the decoders of the field types. (The fuel in the model is never used up.) -/
theorem C13_decoder_equation (env : Env) (name : List String) (args : List Ty) :
    decodeExt env name args =
      match env name with
      | some d => decDef (decode env true) args d
      | none => fun _ => .panic := decodeExt_eq env name args

/-- Two messages in a row: both values come back. -/
theorem C13_messages_concatenate (env : Env) (hE : EnvOk env) (name name' : List String) (args args' : List Ty)
    (v v' : Val) (hw : wt env (.ext name args) v = true) (hf : faithful env (.ext name args) v = true)
    (hl : (enc env false (.ext name args) v).length < 2 ^ 64)
    (hw' : wt env (.ext name' args') v' = true) (hf' : faithful env (.ext name' args') v' = true)
    (hl' : (enc env false (.ext name' args') v').length < 2 ^ 64) (s : Bytes) :
    (decodeExt env name args (enc env false (.ext name args) v ++ enc env false (.ext name' args') v' ++ s)).bind
      (fun a r => (decodeExt env name' args' r).map fun b => (a, b)) = .ok (v, v') s := by
  rw [List.append_assoc, C13_roundtrip env hE name args v hw hf hl, Res.bind_ok,
    C13_roundtrip env hE name' args' v' hw' hf' hl']
  rfl

/-- Different values of a type have different encodings, and neither is a prefix of the other. -/
theorem C13_encoding_injective (env : Env) (hE : EnvOk env) (name : List String) (args : List Ty) (v v' : Val)
    (hw : wt env (.ext name args) v = true) (hf : faithful env (.ext name args) v = true)
    (hl : (enc env false (.ext name args) v).length < 2 ^ 64)
    (hw' : wt env (.ext name args) v' = true) (hf' : faithful env (.ext name args) v' = true)
    (hl' : (enc env false (.ext name args) v').length < 2 ^ 64) (s s' : Bytes)
    (h : enc env false (.ext name args) v ++ s = enc env false (.ext name args) v' ++ s') : v = v' ∧ s = s' := by
  have h1 := C13_roundtrip env hE name args v hw hf hl s
  rw [h, C13_roundtrip env hE name args v' hw' hf' hl' s'] at h1
  injection h1 with a b
  exact ⟨a.symm, b.symm⟩

-- the hypotheses are met by a person with tags, a tuple, a map, nested and generic structs …
example : EnvOk Demo.env ∧ wt Demo.env (.ext ["Person"] []) Demo.personV = true ∧
    faithful Demo.env (.ext ["Person"] []) Demo.personV = true ∧
    (enc Demo.env false (.ext ["Person"] []) Demo.personV).length < 2 ^ 64 :=
  ⟨Demo.env_ok, by decide +kernel, by decide +kernel, by decide +kernel⟩
-- … and by a recursive type
example : wt Demo.env (.ext ["Node"] []) Demo.nodeV = true ∧
    faithful Demo.env (.ext ["Node"] []) Demo.nodeV = true ∧ noEmpty Demo.env (.ext ["Node"] []) Demo.nodeV = true ∧
    size Demo.env (.ext ["Node"] []) Demo.nodeV = (enc Demo.env false (.ext ["Node"] []) Demo.nodeV).length := by
  decide +kernel
-- the schema-level hypotheses
example : PlainEnv Demo.env Demo.plainNames ∧ ShallowEnv Demo.env Demo.plainNames Demo.shallowNames ∧
    Demo.shallowNames ["Person"] = true := ⟨Demo.plain, Demo.shallow, rfl⟩
example (s : Bytes) : decodeExt Demo.env ["Person"] [] (enc Demo.env false (.ext ["Person"] []) Demo.personV ++ s)
    = .ok Demo.personV s :=
  C13_roundtrip_shallow_schema _ Demo.env_ok _ _ Demo.plain Demo.shallow _ _ rfl rfl _
    (by decide +kernel) (by decide +kernel) s

/-- `struct Nested { rows: vec<vec<u16>> @1 }`. -/
def nestedEnv : Env :=
  Demo.envOf [(["Nested"], .struct ⟨.named, [⟨"rows", .vec (.vec (.prim .u16)), 1⟩]⟩)]

/-- One row of 64 elements of two bytes each. -/
def nestedV : Val := .struct [.list [.list (List.replicate 64 (.num 128))]]

/-- Without the side condition the round trip is false: a struct with a `vec<vec<u16>>` field, one row of
64 two-byte elements, encodes to something its own decoder rejects. -/
theorem C13_fails_for_nested_collections :
    EnvOk nestedEnv ∧ wt nestedEnv (.ext ["Nested"] []) nestedV = true ∧
    noEmpty nestedEnv (.ext ["Nested"] []) nestedV = true ∧
    decodeExt nestedEnv ["Nested"] [] (enc nestedEnv false (.ext ["Nested"] []) nestedV) = .err .insufficientData := by
  refine ⟨Demo.envOf_ok (by decide +kernel), by decide +kernel, by decide +kernel, by decide +kernel⟩

/-- `struct Units { items: vec<Empty> @1 }` with the unit struct `Empty`. -/
def unitsEnv : Env :=
  Demo.envOf [(["Units"], .struct ⟨.named, [⟨"items", .vec (.ext ["Empty"] []), 1⟩]⟩), (["Empty"], .struct ⟨.unit, []⟩)]

/-- Zero-byte elements are lost: a vector of any positive number of unit structs decodes to the empty one. -/
theorem C13_zero_byte_elements_are_lost (n : Nat) (s : Bytes) :
    wt unitsEnv (.ext ["Units"] []) (.struct [.list (List.replicate n (.struct []))]) = true ∧
    decodeExt unitsEnv ["Units"] []
      (enc unitsEnv false (.ext ["Units"] []) (.struct [.list (List.replicate n (.struct []))]) ++ s)
      = .ok (.struct [.list []]) s := by
  have hE : EnvOk unitsEnv := Demo.envOf_ok (by decide +kernel)
  have hU : unitsEnv ["Units"] = some (.struct ⟨.named, [⟨"items", .vec (.ext ["Empty"] []), 1⟩]⟩) := rfl
  have h0 : ∀ n, sizeList unitsEnv (.ext ["Empty"] []) (List.replicate n (.struct [])) = 0 := by
    intro n
    induction n with
    | zero => rfl
    | succ n ih => simp only [List.replicate_succ, sizeList, ih]; decide +kernel
  have h1 : ∀ n, encList unitsEnv (.ext ["Empty"] []) (List.replicate n (.struct [])) = [] := by
    intro n
    induction n with
    | zero => rfl
    | succ n ih => simp only [List.replicate_succ, encList, ih]; decide +kernel
  have h2 : ∀ n, wtList unitsEnv (.ext ["Empty"] []) (List.replicate n (.struct [])) = true := by
    intro n
    induction n with
    | zero => rfl
    | succ n ih => simp only [List.replicate_succ, wtList, ih]; decide +kernel
  refine ⟨?_, ?_⟩
  · rw [wt.eq_def]
    simp only [Ty.strip, hU, Fields.subst, List.map_cons, List.map_nil, Ty.subst, Ty.substList, wtFields,
      Bool.and_eq_true]
    refine ⟨by simp [Ty.nzOk, Ty.isNz], by decide, ?_, trivial⟩
    rw [wt.eq_def]
    simp only [Ty.strip, h2, Bool.and_true]
    simp [Ty.nzOk, Ty.isNz]
  · have : enc unitsEnv false (.ext ["Units"] []) (.struct [.list (List.replicate n (.struct []))])
        = enc unitsEnv false (.ext ["Units"] []) (.struct [.list []]) := by
      rw [enc.eq_def, enc.eq_def unitsEnv false (.ext ["Units"] []) (.struct [.list []])]
      simp only [Ty.strip, hU, Fields.subst, List.map_cons, List.map_nil, Ty.subst, Ty.substList, encFields]
      rw [enc.eq_def, enc.eq_def unitsEnv true (.vec _) (.list [])]
      simp only [Ty.strip, h0, h1, sizeList, encList]
    rw [this]
    exact C13_roundtrip unitsEnv hE _ _ _ (by decide +kernel) (by decide +kernel) (by decide +kernel) s

/-! ### C14 -/

/-- C14 (partial: the full claim, equality for every value, is refuted below): `size()` never
over-estimates; it is the encoded length exactly when, everywhere inside the value, the element count and
the byte count of each collection have equally long varints and no tuple is used as a struct field
(`exactSize`, `Spec/Size.lean`). -/
theorem C14_size_partial (env : Env) (hE : EnvOk env) (t : Ty) (v : Val) (hw : wt env t v = true)
    (hn : noEmpty env t v = true) (hl : (enc env false t v).length < 2 ^ 64) :
    size env t v ≤ (enc env false t v).length ∧
    (size env t v = (enc env false t v).length ↔ exactSize env t v = true) :=
  ⟨((sz2 hE v).1 t hw hn hl).1, ((sz2 hE v).1 t hw hn hl).2.1⟩

/-- C14 for schemas without collections and tuple fields (partial as above): `size()` is exact for every
value. -/
theorem C14_size_exact_plain_partial (env : Env) (hE : EnvOk env) (S : List String → Bool) (hS : PlainEnv env S)
    (t : Ty) (ht : plainTy S t = true) (v : Val) (hw : wt env t v = true)
    (hl : (enc env false t v).length < 2 ^ 64) : size env t v = (enc env false t v).length :=
  have h := plain_ok hS ht hw
  ((C14_size_partial env hE t v hw h.2.1 hl).2).2 h.2.2

/-- Consequence for the announced sizes: the elements of a collection of plain elements are announced
exactly. -/
theorem C14_announced_size_exact_partial (env : Env) (hE : EnvOk env) (S : List String → Bool) (hS : PlainEnv env S)
    (t : Ty) (ht : elemTy env S t = true) (xs : List Val) (hw : wtList env t xs = true)
    (hl : (encList env t xs).length < 2 ^ 64) : sizeList env t xs = (encList env t xs).length :=
  have h := elems_ok hS ht hw
  (((szLists hE xs).1 t hw h.2.1 hl).2.2).2 h.2.2

example : wt Demo.env (.ext ["Pair"] [.prim .u8, .ext ["Address"] []]) (.struct [.num 3, Demo.addressV]) = true ∧
    plainTy Demo.plainNames (.ext ["Pair"] [.prim .u8, .ext ["Address"] []]) = true ∧
    size Demo.env (.ext ["Pair"] [.prim .u8, .ext ["Address"] []]) (.struct [.num 3, Demo.addressV]) = 14 := by
  decide +kernel

/-- Refutation of the full C14, collections: `struct { rows: vec<u16> }` with 64 two-byte elements reports
one byte less than it writes. -/
theorem C14_fails_for_collections :
    let env := Demo.envOf [(["S"], .struct ⟨.named, [⟨"a", .vec (.prim .u16), 1⟩]⟩)]
    let v := Val.struct [.list (List.replicate 64 (.num 128))]
    EnvOk env ∧ wt env (.ext ["S"] []) v = true ∧
      size env (.ext ["S"] []) v + 1 = (enc env false (.ext ["S"] []) v).length :=
  ⟨Demo.envOf_ok (by decide +kernel), by decide +kernel, by decide +kernel⟩

/-- Refutation of the full C14, tuple fields: a struct with a tuple field reports one byte less than it
writes, for *every* value of the tuple `(f32, f32)`. -/
theorem C14_fails_for_tuple_fields (a b : Nat) (ha : a < 2 ^ 32) (hb : b < 2 ^ 32) :
    let env := Demo.envOf [(["S"], .struct ⟨.named, [⟨"a", .tuple [.prim .f32, .prim .f32], 1⟩]⟩)]
    let v := Val.struct [.list [.num a, .num b]]
    wt env (.ext ["S"] []) v = true ∧
      size env (.ext ["S"] []) v + 1 = (enc env false (.ext ["S"] []) v).length := by
  intro env v
  have hS : env ["S"] = some (.struct ⟨.named, [⟨"a", .tuple [.prim .f32, .prim .f32], 1⟩]⟩) := rfl
  have hb4 : ∀ n, (beBytes 4 n).length = 4 := fun n => beBytes_length 4 n
  refine ⟨?_, ?_⟩
  · rw [wt.eq_def]
    simp only [Ty.strip, v, hS, Fields.subst, List.map_cons, List.map_nil, Ty.subst, Ty.substList, wtFields,
      Bool.and_eq_true]
    refine ⟨by simp [Ty.nzOk, Ty.isNz], by decide, ?_, trivial⟩
    rw [wt.eq_def]
    simp only [Ty.strip, wtTuple]
    rw [wt.eq_def, wt.eq_def env (.prim .f32) (.num b)]
    simp [Ty.strip, Prim.rep, Rep.has, Ty.nzOk, Ty.isNz, ha, hb]
  · have hsz : ∀ n, size env (.prim .f32) (.num n) = 4 := by intro n; rw [size.eq_def]; rfl
    have henc : ∀ n, (enc env false (.prim .f32) (.num n)).length = 4 := by
      intro n; rw [enc.eq_def]; exact hb4 _
    have hst : size env (.tuple [.prim .f32, .prim .f32]) (.list [.num a, .num b]) = 8 := by
      rw [size.eq_def]; simp only [Ty.strip, sizeTuple, hsz]
    have het : (enc env true (.tuple [.prim .f32, .prim .f32]) (.list [.num a, .num b])).length = 9 := by
      rw [enc_root_tuple, enc.eq_def]
      simp only [Ty.strip, Codegen.encTuple, sizeTuple, hsz, List.length_append, henc, List.length_nil]
      decide +kernel
    rw [size.eq_def, enc.eq_def]
    simp only [Ty.strip, v, hS, Fields.subst, List.map_cons, List.map_nil, Ty.subst, Ty.substList, sizeFields,
      encFields, reduceCtorEq, if_false, marker, encField, sizeField, hst, het, List.length_append]
    decide +kernel

end Mabo.Props
