import Verif.Lsp.Sync
/-!
What the Language Server Protocol (3.17) says about documents: positions, changes and the notifications a client sends.
Lines end with a line feed.
-/
namespace Mabo.Spec
open Mabo.Lsp

/-- The negotiated unit of `Position.character`. -/
inductive Encoding where
  | utf8 | utf16 | utf32
deriving DecidableEq, Repr

/-- Units of a character. -/
def width : Encoding → Char → Nat
  | .utf8, c => c.utf8Size
  | .utf16, c => if c.toNat < 0x10000 then 1 else 2
  | .utf32, _ => 1

/-- The characters after the last line feed. -/
def lastLine (t : Text) : Text := (t.reverse.takeWhile (· ≠ '\n')).reverse

/-- The position behind a text: the number of line feeds in it, and the units in its last line. -/
def posOf (enc : Encoding) (t : Text) : Position :=
  ⟨t.count '\n', ((lastLine t).map (width enc)).sum⟩

/-- The contract of `Index::get_offset`: the position between two parts of a text is the number of bytes of the first. -/
def OffsetContract (enc : Encoding) (offset : Text → Position → Option Nat) : Prop :=
  ∀ a b : Text, offset (a ++ b) (posOf enc a) = some (bytes a)

/-- One change: all of the text, or the part between two positions, is replaced. -/
def Applies (enc : Encoding) (t : Text) (ch : Change) (t' : Text) : Prop :=
  (ch.range = none ∧ t' = ch.text) ∨
    ∃ a b c, t = a ++ b ++ c ∧ ch.range = some (posOf enc a, posOf enc (a ++ b)) ∧ t' = a ++ ch.text ++ c

/-- The changes of a notification: each one refers to the text after the previous one. -/
def AppliesAll (enc : Encoding) (t : Text) : List Change → Text → Prop
  | [], t' => t' = t
  | ch :: chs, t' => ∃ t1, Applies enc t ch t1 ∧ AppliesAll enc t1 chs t'

/-- Changes from the back of the document to its front: each one lies in the part `front` before all previous ones;
`behind` is the rest of the text so far. -/
def BackToFront (enc : Encoding) (front behind : Text) : List Change → Text → Prop
  | [], t' => t' = front ++ behind
  | ch :: chs, t' => ∃ a b c, front = a ++ b ++ c ∧ ch.range = some (posOf enc a, posOf enc (a ++ b)) ∧
      BackToFront enc a (ch.text ++ c ++ behind) chs t'

/-- The documents of the client: the text of those that are open. -/
abbrev Docs (Uri : Type) := Uri → Option Text

variable {Uri : Type} [DecidableEq Uri]

/-- Set the text of a document. -/
def Docs.set (d : Docs Uri) (u : Uri) (t : Option Text) : Docs Uri := fun v => if v = u then t else d v

/-- What a client sends, and how its own documents change with it. Documents are changed while they are open; only files
that are not open are deleted. -/
inductive Sends (enc : Encoding) : Docs Uri → Notification Uri → Docs Uri → Prop
  | open (d : Docs Uri) (u : Uri) (t : Text) : Sends enc d (.didOpen u t) (d.set u (some t))
  | change (d : Docs Uri) (u : Uri) (t t' : Text) (chs : List Change) :
      d u = some t → AppliesAll enc t chs t' → Sends enc d (.didChange u chs) (d.set u (some t'))
  | close (d : Docs Uri) (u : Uri) : Sends enc d (.didClose u) (d.set u none)
  | delete (d : Docs Uri) (us : List Uri) : (∀ u ∈ us, d u = none) → Sends enc d (.didDelete us) d

/-- A history of the client. -/
inductive History (enc : Encoding) (P : Docs Uri → Notification Uri → Prop) : Docs Uri → List (Notification Uri) → Docs Uri → Prop
  | nil (d : Docs Uri) : History enc P d [] d
  | cons {d d1 d2 : Docs Uri} {n : Notification Uri} {ns : List (Notification Uri)} :
      Sends enc d n d1 → P d n → History enc P d1 ns d2 → History enc P d (n :: ns) d2

end Mabo.Spec
