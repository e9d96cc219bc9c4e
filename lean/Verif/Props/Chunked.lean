import Verif.ChunkedLemmas
import Verif.Props.RoundTrip
/-!
C23: decoding from a buffer made of several pieces. `Chunked.decodeExt env name args pieces` is `T::decode(r)` for a
`Buf` whose contents are `pieces.flatten`, handed out piece by piece; `Codegen.decodeExt` is the same on one
contiguous slice.
-/
namespace Mabo.Props
open Mabo.Buf Mabo.Varint Mabo.Schema Mabo.Codegen Mabo.Spec

/-- C23 (partial: the full claim, the same outcome however the bytes are split, is refuted below): for every way of
cutting the bytes into pieces, the outcome is the outcome on the contiguous bytes (same value, same remaining bytes,
same error), or the varint error `DecodeInt`. In particular a wrong value is never returned. -/
theorem C23_any_chunking_partial (env : Env) (name : List String) (args : List Ty) (pieces : List Bytes) :
    match Chunked.decodeExt env name args pieces with
    | .ok v rest => decodeExt env name args pieces.flatten = .ok v rest.flatten
    | .err e => e = .decodeInt ∨ decodeExt env name args pieces.flatten = .err e
    | .panic => decodeExt env name args pieces.flatten = .panic
    | .hang => decodeExt env name args pieces.flatten = .hang := by
  have h := Chunked.decodeExt_sim (g := false) env name args pieces (by simp)
  generalize Chunked.decodeExt env name args pieces = x at h
  generalize decodeExt env name args pieces.flatten = y at h
  cases h with
  | ok v c hc => rfl
  | err e => exact .inr rfl
  | panic => rfl
  | hang => rfl
  | split _ _ => exact .inl rfl

/-- C23 when no boundary lies inside a varint (every piece but the last ends with a byte below `0x80`): the outcome
is exactly the outcome on the contiguous bytes. -/
theorem C23_clean_boundaries_partial (env : Env) (name : List String) (args : List Ty) (pieces : List Bytes)
    (h : CleanBoundaries pieces) :
    match Chunked.decodeExt env name args pieces with
    | .ok v rest => decodeExt env name args pieces.flatten = .ok v rest.flatten
    | .err e => decodeExt env name args pieces.flatten = .err e
    | .panic => decodeExt env name args pieces.flatten = .panic
    | .hang => decodeExt env name args pieces.flatten = .hang := by
  have h := Chunked.decodeExt_sim (g := true) env name args pieces (fun _ => h)
  generalize Chunked.decodeExt env name args pieces = x at h
  generalize decodeExt env name args pieces.flatten = y at h
  cases h with
  | ok v c hc => rfl
  | err e => rfl
  | panic => rfl
  | hang => rfl
  | split h _ => cases h

/-- Hence an encoded value survives every cut with clean boundaries. -/
theorem C23_roundtrip_partial (env : Env) (hE : EnvOk env) (name : List String) (args : List Ty) (v : Val)
    (hw : wt env (.ext name args) v = true) (hf : faithful env (.ext name args) v = true)
    (hl : (enc env false (.ext name args) v).length < 2 ^ 64) (pieces : List Bytes) (hc : CleanBoundaries pieces)
    (hp : pieces.flatten = enc env false (.ext name args) v) :
    ∃ rest, Chunked.decodeExt env name args pieces = .ok v rest ∧ rest.flatten = [] := by
  have h1 := C13_roundtrip env hE name args v hw hf hl []
  rw [List.append_nil, ← hp] at h1
  have h2 := C23_clean_boundaries_partial env name args pieces hc
  rw [h1] at h2
  revert h2
  cases Chunked.decodeExt env name args pieces with
  | ok v' rest =>
    intro h2
    injection h2 with a b
    exact ⟨rest, by rw [a], b.symm⟩
  | err e => intro h2; cases h2
  | panic => intro h2; cases h2
  | hang => intro h2; cases h2

/-- Refutation of the full C23: for every struct with fields and every message that begins with a varint of more than
one byte, handing out the first byte alone gives the error `DecodeInt`. -/
theorem C23_fails_for_split_varint (env : Env) (name : List String) (args : List Ty) (fs : Fields)
    (hd : env name = some (.struct fs)) (hk : fs.kind ≠ .unit) (b : UInt8) (hb : 128 ≤ b.toNat) (tail : List Bytes) :
    Chunked.decodeExt env name args ([b] :: tail) = .err .decodeInt := by
  unfold Chunked.decodeExt Chunked.decExt
  rw [hd]
  simp only [Chunked.decDef, Chunked.decFields]
  rw [if_neg (by simpa [Fields.subst] using hk)]
  have hu : Chunked.decUint 32 ([b] :: tail) = .err .decodeInt := by
    unfold Chunked.decUint
    have : decodeU 32 (Chunked.chunk ([b] :: tail)) = none := by
      rw [Chunked.decodeU_none]
      intro x hx
      have hx := List.mem_of_mem_take hx
      simp [Chunked.chunk] at hx
      rw [hx]; exact hb
    rw [this]
  simp only [Chunked.fieldLoop, Chunked.decId, hu]
  rfl

/-- … although the contiguous message decodes: the smallest field id with such a message is 16. -/
theorem C23_split_witness :
    let env := Demo.envOf [(["S"], .struct ⟨.named, [⟨"a", .prim .u8, 16⟩]⟩)]
    let v := Val.struct [.num 7]
    let msg := enc env false (.ext ["S"] []) v
    decodeExt env ["S"] [] msg = .ok v [] ∧ msg.length = 4 ∧
      Chunked.decodeExt env ["S"] [] [msg.take 1, msg.drop 1] = .err .decodeInt ∧
      Chunked.decodeExt env ["S"] [] [msg.take 2, msg.drop 2] = .ok v [] := by
  decide +kernel

-- clean cuts of an encoded person (with a string, a map, a tuple, nested structs)
example : let m := enc Demo.env false (.ext ["Person"] []) Demo.personV
    Chunked.decodeExt Demo.env ["Person"] [] [m.take 1, [], (m.drop 1).take 3, m.drop 4] = .ok Demo.personV [] := by
  decide +kernel
example : CleanBoundaries [[0x09, 0x01], [], [0x41, 0x80]] := by
  refine ⟨?_, ?_, trivial⟩ <;> intro b hb
  · have : b = 0x01 := by simpa using hb.symm
    subst this; decide
  · simp at hb

end Mabo.Props
