/-!
Model of the container in `crates/mabo-parser/src/punctuated.rs`. The separators carry no information (a comma is a
span), so a pair `(T, P)` is a `T` and `Option<P>` is a flag.
-/
namespace Mabo.Parse

/-- `Punctuated`, punctuated.rs:20-24. -/
structure Punctuated (α : Type) where
  values : List α
  last : α
  trailing : Bool

/-- `Punctuated::len`, punctuated.rs:49-51. -/
def Punctuated.len {α : Type} (p : Punctuated α) : Nat := p.values.length + 1

/-- `ValuesIter`, punctuated.rs:136-139: what is left of the slice iterator and of `iter::once`. -/
structure ValuesIter (α : Type) where
  items : List α
  last : Option α

/-- `Punctuated::values`, punctuated.rs:36-41. -/
def Punctuated.valuesIter {α : Type} (p : Punctuated α) : ValuesIter α := ⟨p.values, some p.last⟩

/-- `Iterator::next` for `ValuesIter`, punctuated.rs:139-144. -/
def ValuesIter.next {α : Type} (it : ValuesIter α) : Option (α × ValuesIter α) :=
  match it.items with
  | x :: xs => some (x, ⟨xs, it.last⟩)
  | [] => match it.last with
    | some x => some (x, ⟨[], none⟩)
    | none => none

/-- `ExactSizeIterator::len` for `ValuesIter`, punctuated.rs:152-156. -/
def ValuesIter.len {α : Type} (it : ValuesIter α) : Nat := it.items.length + 1

/-- `Iter`, punctuated.rs:107-110. -/
structure Iter (α : Type) where
  items : List α
  last : Option (α × Bool)

/-- `Punctuated::iter`, punctuated.rs:57-62. -/
def Punctuated.iter {α : Type} (p : Punctuated α) : Iter α := ⟨p.values, some (p.last, p.trailing)⟩

/-- `Iterator::next` for `Iter`, punctuated.rs:115-120; the flag tells whether a separator follows. -/
def Iter.next {α : Type} (it : Iter α) : Option ((α × Bool) × Iter α) :=
  match it.items with
  | x :: xs => some ((x, true), ⟨xs, it.last⟩)
  | [] => match it.last with
    | some x => some (x, ⟨[], none⟩)
    | none => none

/-- Elements that successive calls of `next` return, until the first `None` (at most `n` calls). -/
def drain {σ α : Type} (next : σ → Option (α × σ)) : Nat → σ → List α
  | 0, _ => []
  | n + 1, s => match next s with
    | none => []
    | some (a, s') => a :: drain next n s'

end Mabo.Parse
