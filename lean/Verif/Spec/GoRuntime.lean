import Verif.Spec.GoRun
import Verif.Go.Tree
/-! What the emitted Go code expects of the functions of the runtime library, and the Go values of a type. -/
namespace Mabo.Spec.GoRun
open Mabo.Go Mabo.Simplify
open Mabo.Schema (Prim)
open Mabo.Parse (Text printNat)

/-- A function of the package `buf`, called with the values and then these functions. -/
def lib (ρ : Runtime) (x : Text) (ts : List GTy) (fs : List (List Val → Option (List Val))) (vs : List Val) : Option (List Val) :=
  ρ.call x ts (vs.map .val ++ fs.map .fn)

/-- The bytes `bs` are the encoding of `v`: `enc` appends them, `size` is their number, and `dec` reads `u` from them and leaves what
is behind. -/
structure Coded (enc size dec : List Val → Option (List Val)) (v u : Val) (bs : List UInt8) : Prop where
  enc : ∀ w, enc [.bytes w, v] = some [.bytes (w ++ bs)]
  size : size [v] = some [.num bs.length]
  dec : ∀ rest, dec [.bytes (bs ++ rest)] = some [.bytes rest, u, .nil]

/-- The functions encode, measure and decode all these values. -/
def Codec (enc size dec : List Val → Option (List Val)) (P : Val → Prop) : Prop := ∀ v, P v → ∃ bs, Coded enc size dec v v bs

/-- Numbers, texts and collections that are zero or empty. -/
def Val.isZero : Val → Bool
  | .num i => i == 0
  | .text [] | .bytes [] | .seq [] | .map [] => true
  | _ => false

/-- The same for values that are not zero, which are read as `NonZero..`. -/
def NzCodec (enc size dec : List Val → Option (List Val)) (P : Val → Prop) : Prop :=
  ∀ v, P v → v.isZero = false → ∃ bs, Coded enc size dec v (.nonZero v) bs

/-- Slices. -/
def ListOf (P : Val → Prop) (v : Val) : Prop := ∃ xs, v = .seq xs ∧ ∀ x ∈ xs, P x

/-- Maps. -/
def MapOf (P Q : Val → Prop) (v : Val) : Prop :=
  ∃ xs : List (Val × Val), v = .map xs ∧ (xs.map (·.1)).Nodup ∧ ∀ x ∈ xs, P x.1 ∧ Q x.2

/-- The value of `struct{}`. -/
def Val.unit : Val := .obj [] fun _ => .nil

/-- Sets are maps. -/
def SetOf (P : Val → Prop) : Val → Prop := MapOf P (· = .unit)

/-- Pointers. -/
def OptionOf (P : Val → Prop) (v : Val) : Prop := v = .nil ∨ ∃ x, v = .ptr x ∧ P x

/-- Arrays. -/
def ArrayOf (size : Nat) (P : Val → Prop) (v : Val) : Prop := ∃ xs, v = .seq xs ∧ xs.length = size ∧ ∀ x ∈ xs, P x

/-- The runtime library does what its names say: for values of leaf types as in `Leaf`, and field ids that are written as in `tag`. -/
structure Faithful (ρ : Runtime) (Leaf : Prim → Val → Prop) (tag : Nat → List UInt8) : Prop where
  prim : ∀ p, Codec (lib ρ (n "Encode" ++ n (fnPrim p)) [] []) (lib ρ (n "Size" ++ n (fnPrim p)) [] [])
    (lib ρ (n "Decode" ++ n (fnPrim p)) [] []) (Leaf p)
  vec : ∀ g {enc size dec P}, Codec enc size dec P →
    Codec (lib ρ (n "EncodeVec") [g] [enc]) (lib ρ (n "SizeVec") [g] [size]) (lib ρ (n "DecodeVec") [g] [dec]) (ListOf P)
  map : ∀ g g' {enc size dec P enc' size' dec' P'}, Codec enc size dec P → Codec enc' size' dec' P' →
    Codec (lib ρ (n "EncodeHashMap") [g, g'] [enc, enc']) (lib ρ (n "SizeHashMap") [g, g'] [size, size'])
      (lib ρ (n "DecodeHashMap") [g, g'] [dec, dec']) (MapOf P P')
  set : ∀ g {enc size dec P}, Codec enc size dec P →
    Codec (lib ρ (n "EncodeHashSet") [g] [enc]) (lib ρ (n "SizeHashSet") [g] [size]) (lib ρ (n "DecodeHashSet") [g] [dec]) (SetOf P)
  option : ∀ g {enc size dec P}, Codec enc size dec P →
    Codec (lib ρ (n "EncodeOption") [g] [enc]) (lib ρ (n "SizeOption") [g] [size]) (lib ρ (n "DecodeOption") [g] [dec]) (OptionOf P)
  array : ∀ g size {enc sz dec P}, Codec enc sz dec P →
    Codec (lib ρ (n "EncodeArray" ++ printNat size) [g] [enc]) (lib ρ (n "SizeArray" ++ printNat size) [g] [sz])
      (lib ρ (n "DecodeArray" ++ printNat size) [g] [dec]) (ArrayOf size P)
  nzPrim : ∀ p, Mabo.Go.nzPrim p = true → NzCodec (lib ρ (n "Encode" ++ n (fnPrim p)) [] []) (lib ρ (n "Size" ++ n (fnPrim p)) [] [])
    (lib ρ (n "DecodeNonZero" ++ n (fnPrim p)) [] []) (Leaf p)
  nzVec : ∀ g {enc size dec P}, Codec enc size dec P →
    NzCodec (lib ρ (n "EncodeVec") [g] [enc]) (lib ρ (n "SizeVec") [g] [size]) (lib ρ (n "DecodeNonZeroVec") [g] [dec]) (ListOf P)
  nzMap : ∀ g g' {enc size dec P enc' size' dec' P'}, Codec enc size dec P → Codec enc' size' dec' P' →
    NzCodec (lib ρ (n "EncodeHashMap") [g, g'] [enc, enc']) (lib ρ (n "SizeHashMap") [g, g'] [size, size'])
      (lib ρ (n "DecodeNonZeroHashMap") [g, g'] [dec, dec']) (MapOf P P')
  nzSet : ∀ g {enc size dec P}, Codec enc size dec P →
    NzCodec (lib ρ (n "EncodeHashSet") [g] [enc]) (lib ρ (n "SizeHashSet") [g] [size]) (lib ρ (n "DecodeNonZeroHashSet") [g] [dec])
      (SetOf P)
  get : ∀ v, ρ.method (n "Get") (.nonZero v) [] = some [v]
  /-- An id takes some bytes, and can be read. -/
  tagged : ∀ id, tag id ≠ []
  decodeId : ∀ id rest, lib ρ (n "DecodeID") [] [] [.bytes (tag id ++ rest)] = some [.bytes rest, .num id, .nil]
  /-- A field is its id and what the function writes. -/
  field : ∀ id f w out, f [.bytes (w ++ tag id)] = some out → lib ρ (n "EncodeField") [] [f] [.bytes w, .num (id : Nat)] = some out
  sizeField : ∀ id f (s : Nat), f [] = some [.num s] →
    lib ρ (n "SizeField") [] [f] [.num (id : Nat)] = some [.num ((tag id).length + s : Nat)]
  /-- The end of the fields is the id 0. -/
  marker : ρ.const (n "EndMarker") = some (.num 0)
  encodeMarker : ∀ w, lib ρ (n "EncodeU32") [] [] [.bytes w, .num 0] = some [.bytes (w ++ tag 0)]
  markerSize : ρ.const (n "EndMarkerSize") = some (.num (tag 0).length)

/-- A field that is a pointer is written if it is not nil: its id and then the value, as in Rust. -/
structure FieldOptions (ρ : Runtime) (tag : Nat → List UInt8) : Prop where
  none : ∀ g id f w, ρ.call (n "EncodeFieldOption") [g] [.val (.bytes w), .val (.num (id : Nat)), .val (.ptr .nil), .fn f] =
    Option.some [.bytes w]
  some : ∀ g id f w v, ρ.call (n "EncodeFieldOption") [g] [.val (.bytes w), .val (.num (id : Nat)), .val (.ptr (.ptr v)), .fn f] =
    f [.bytes (w ++ tag id), v]
  sizeNone : ∀ g id f, ρ.call (n "SizeFieldOption") [g] [.val (.num (id : Nat)), .val (.ptr .nil), .fn f] = Option.some [.num 0]
  sizeSome : ∀ g id f v (s : Nat), f [v] = Option.some [.num s] →
    ρ.call (n "SizeFieldOption") [g] [.val (.num (id : Nat)), .val (.ptr (.ptr v)), .fn f] = Option.some [.num ((tag id).length + s : Nat)]

/-- The Go values of a type. Types of other definitions are not covered, nor are tuples. -/
def Fits (Leaf : Prim → Val → Prop) : Ty → Val → Prop
  | .prim p => Leaf p
  | .vec t => ListOf (Fits Leaf t)
  | .hashMap k v => MapOf (Fits Leaf k) (Fits Leaf v)
  | .hashSet t => SetOf (Fits Leaf t)
  | .option t => OptionOf (Fits Leaf t)
  | .nonZero t => fun v => ∃ x, v = .nonZero x ∧ Fits Leaf t x ∧ x.isZero = false
  | .array t size => ArrayOf size.toNat (Fits Leaf t)
  | .tuple _ | .external _ _ _ => fun _ => False

/-- Types without tuples and without references. -/
def basicTy : Ty → Bool
  | .prim _ => true
  | .vec t | .hashSet t | .option t | .nonZero t | .array t _ => basicTy t
  | .hashMap k v => basicTy k && basicTy v
  | .tuple _ | .external _ _ _ => false

/-- `option`. -/
def isOption : Ty → Bool
  | .option _ => true
  | _ => false

/-- The file has this method. -/
def HasMethod (f : File) (recv m : Text) (ps : List (Text × GTy)) (body : List Stmt) : Prop :=
  ∃ gs res, Decl.method true recv gs m ps res body ∈ f.decls

/-- `w []byte`. -/
def bytesParam (x : String) : List (Text × GTy) := [(x.toList, .slice (.name "byte".toList []))]

/-- The error for a field that is missing. -/
def missingField (id : Nat) (name : Text) : Val :=
  .obj "MissingFieldError".toList fun y => if y = "ID".toList then .num id else if y = "Field".toList then .text name else .nil

/-- The functions of the package `buf` get functions that are called with byte slices, so that they cannot see anything else of them. -/
def FieldTyped (ρ : Runtime) : Prop :=
  ∀ f g w id, (∀ b, f [.bytes b] = g [.bytes b]) →
    lib ρ (n "EncodeField") [] [f] [.bytes w, .num id] = lib ρ (n "EncodeField") [] [g] [.bytes w, .num id]

end Mabo.Spec.GoRun
