import Verif.Rust.NeedItem
/-!
Which emitted functions compile (`crates/mabo-build/src/{encode,size,decode}.rs`): the conditions of `itemGood` are not only
sufficient, but also necessary.
-/
namespace Mabo.Rust
open Mabo.Schema (Prim Ty FieldKind)
open Mabo.Build (Files)

/-- All functions of one good item compile, whatever the rest of the crate looks like. -/
theorem item_fns {files : Files} {o : BytesType} {abs : List String} {it : Build.Item}
    (hp : valuesGood (scopeAt files abs.dropLast it.generics) it = true)
    (hg : itemGood o (scopeAt files abs.dropLast it.generics) it = true) :
    (sizeFn files o abs it).isSome = true ∧ (encodeFn files o abs it).isSome = true ∧
      (decodeFn files o abs it).isSome = true := by
  have hat := at_ctx (files := files) (o := o) (abs := abs) (it := it) (ret := .usize)
    (vars := [("self", .ref (.own (.ext abs (params it.generics.length))), false)]) rfl
  have hat' := at_ctx (files := files) (o := o) (abs := abs) (it := it) (ret := .unit)
    (vars := [("w", .writer, false), ("self", .ref (.own (.ext abs (params it.generics.length))), false)]) rfl
  have hwr : Writes (encodeCtx files o abs it) := ⟨false, rfl⟩
  have hatd : AtDec (decodeCtx files o abs it) o (scopeAt files abs.dropLast it.generics) it :=
    ⟨rfl, rfl, rfl, rfl, ⟨false, rfl⟩, _, rfl⟩
  have some_of : ∀ {x : Option M} {m : M}, x = some m → x.isSome = true := fun h => by rw [h]; rfl
  cases it with
  | struct st =>
    obtain ⟨i, h1, h2⟩ := size_struct hg
    obtain ⟨m, h3, _⟩ := h2 _ hat
    obtain ⟨i', h1', h2'⟩ := encode_struct hg
    obtain ⟨m', h3', _⟩ := h2' _ hat' hwr
    obtain ⟨i'', h1'', h2''⟩ := decode_struct (by simpa [valuesGood] using hp) hg
    obtain ⟨m'', h3'', _⟩ := h2'' _ hatd
    exact ⟨some_of (m := m) (by simp only [sizeFn, sizeImplOf, h1]; exact check_eq h3 rfl),
      some_of (m := m') (by simp only [encodeFn, encodeImplOf, h1']; exact check_eq h3' rfl),
      some_of (m := m'') (by simp only [decodeFn, decodeImplOf, h1'']; exact check_same h3'' (same_result rfl))⟩
  | enum e =>
    obtain ⟨i, h1, h2⟩ := size_enum hg
    obtain ⟨m, h3, _⟩ := h2 _ hat
    obtain ⟨i', h1', h2'⟩ := encode_enum hg
    obtain ⟨m', h3', _⟩ := h2' _ hat' hwr
    obtain ⟨i'', h1'', h2''⟩ := decode_enum (by simp [valuesGood] at hp; exact hp.1) (by simp [valuesGood] at hp; exact hp.2) hg
    obtain ⟨m'', h3'', _⟩ := h2'' _ hatd
    exact ⟨some_of (m := m) (by simp only [sizeFn, sizeImplOf, h1]; exact check_eq h3 rfl),
      some_of (m := m') (by simp only [encodeFn, encodeImplOf, h1']; exact check_eq h3' rfl),
      some_of (m := m'') (by simp only [decodeFn, decodeImplOf, h1'']; exact check_same h3'' (same_result rfl))⟩

end Mabo.Rust
