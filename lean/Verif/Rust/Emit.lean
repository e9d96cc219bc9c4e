import Verif.Rust.Syntax
/-!
Model of the Rust code generator: `crates/mabo-build/src/{definition,encode,decode,size}.rs`, from the simplified schema to
the syntax of `Rust/Syntax.lean`. The result is `none` where the generator panics (`todo!`, `panic!`). Which of several
panics comes first is left out, as is `Ident::new`, which panics for text that is not an identifier (the parser makes none).
-/
namespace Mabo.Rust
open Mabo.Simplify
open Mabo.Schema (Prim FieldKind)

/-- `BytesType`, lib.rs:112-120 (and `Opts`, 122-126, which has no other field). -/
inductive BytesType where
  | vecU8
  | bytes
deriving DecidableEq, Repr

/-- All values, if there is none missing. -/
def all {α : Type} : List (Option α) → Option (List α)
  | [] => some []
  | a :: as =>
    match a, all as with
    | some a, some as => some (a :: as)
    | _, _ => none

/-! ### Types: definition.rs -/

/-- A type with a single name. -/
def one (n : String) : TyE := .path false [n] []

/-- `::mabo::buf::Bytes` -/
def bytesTy : TyE := .path true ["mabo", "buf", "Bytes"] []

/-- Leaf types in `compile_data_type`, definition.rs:261-279,326-327. -/
def primTy (o : BytesType) : Prim → TyE
  | .bool => one "bool"
  | .u8 => one "u8"
  | .u16 => one "u16"
  | .u32 => one "u32"
  | .u64 => one "u64"
  | .u128 => one "u128"
  | .i8 => one "i8"
  | .i16 => one "i16"
  | .i32 => one "i32"
  | .i64 => one "i64"
  | .i128 => one "i128"
  | .f32 => one "f32"
  | .f64 => one "f64"
  | .string | .stringRef => one "String"
  | .bytes | .bytesRef =>
    match o with
    | .vecU8 => .path false ["Vec"] [one "u8"]
    | .bytes => bytesTy
  | .boxString => .path false ["Box"] [one "str"]
  | .boxBytes => .path false ["Box"] [.slice (one "u8")]

/-- Leaf types under `Type::NonZero`, definition.rs:298-313. -/
def nonZeroTy (o : BytesType) : Prim → Option TyE
  | .u8 => some (.path true ["std", "num", "NonZeroU8"] [])
  | .u16 => some (.path true ["std", "num", "NonZeroU16"] [])
  | .u32 => some (.path true ["std", "num", "NonZeroU32"] [])
  | .u64 => some (.path true ["std", "num", "NonZeroU64"] [])
  | .u128 => some (.path true ["std", "num", "NonZeroU128"] [])
  | .i8 => some (.path true ["std", "num", "NonZeroI8"] [])
  | .i16 => some (.path true ["std", "num", "NonZeroI16"] [])
  | .i32 => some (.path true ["std", "num", "NonZeroI32"] [])
  | .i64 => some (.path true ["std", "num", "NonZeroI64"] [])
  | .i128 => some (.path true ["std", "num", "NonZeroI128"] [])
  | .string | .stringRef => some (.path true ["mabo", "NonZeroString"] [])
  | .bytes | .bytesRef =>
    match o with
    | .vecU8 => some (.path true ["mabo", "NonZeroBytes"] [])
    | .bytes => some (.path true ["mabo", "NonZero"] [bytesTy])
  | .bool | .f32 | .f64 | .boxString | .boxBytes => none

mutual
/-- `compile_data_type`, definition.rs:259-355. -/
def tyText (o : BytesType) : Ty → Option TyE
  | .prim p => some (primTy o p)
  | .vec t => do pure (.path false ["Vec"] [← tyText o t])
  | .hashMap k v => do pure (.path true ["std", "collections", "HashMap"] [← tyText o k, ← tyText o v])
  | .hashSet t => do pure (.path true ["std", "collections", "HashSet"] [← tyText o t])
  | .option t => do pure (.path false ["Option"] [← tyText o t])
  | .nonZero (.prim p) => nonZeroTy o p
  | .nonZero (.vec t) => do pure (.path true ["mabo", "NonZeroVec"] [← tyText o t])
  | .nonZero (.hashMap k v) => do pure (.path true ["mabo", "NonZeroHashMap"] [← tyText o k, ← tyText o v])
  | .nonZero (.hashSet t) => do pure (.path true ["mabo", "NonZeroHashSet"] [← tyText o t])
  | .nonZero _ => none
  | .tuple ts => do pure (.tuple (← tyTexts o ts))
  | .array t n => do pure (.array (← tyText o t) n.toNat)
  | .external path name generics => do pure (.path false (path ++ [name]) (← tyTexts o generics))
/-- On all types. -/
def tyTexts (o : BytesType) : List Ty → Option (List TyE)
  | [] => some []
  | t :: ts => do pure ((← tyText o t) :: (← tyTexts o ts))
end

/-! ### Pieces of expressions -/

/-- The writer `w`. -/
def w : Expr := .var "w"
/-- The reader `r`. -/
def r : Expr := .var "r"

/-- References, `&&..e`. -/
def refs : Nat → Expr → Expr
  | 0, e => e
  | n + 1, e => .ref (refs n e)

/-- The tokens passed as `name` to the functions below. They are always some `&` and then a variable with fields and calls
of `get` behind it; whatever is written behind `#name` belongs to the latter, because Rust's postfix operators bind stronger
than `&` and `*`. -/
structure Name where
  refs : Nat
  base : Expr

/-- `#name` -/
def Name.expr (n : Name) : Expr := Rust.refs n.refs n.base
/-- `*#name` -/
def Name.deref (n : Name) : Expr := .deref n.expr
/-- `#name.f(..)` -/
def Name.method (n : Name) (f : Meth) (args : List Expr) : Expr := Rust.refs n.refs (.method n.base f args)
/-- `#name.get()` as a name -/
def Name.get (n : Name) : Name := ⟨n.refs, .method n.base .get []⟩
/-- `&#name.idx` as a name -/
def Name.item (n : Name) (i : Nat) : Name := ⟨n.refs + 1, .index n.base i⟩
/-- A variable as a name. -/
def Name.var (x : String) : Name := ⟨0, .var x⟩

/-- The operands as one expression. -/
def add : List Expr → Expr
  | [e] => e
  | es => .sum es

/-- `2..=12`, encode.rs:321, decode.rs:279, size.rs:245. -/
def tupleArm (n : Nat) : Bool := 2 ≤ n && n ≤ 12

/-- Leaf types that are passed by value: encode.rs:163-215, size.rs:187-199, decode.rs:204-216. -/
def byValue : Prim → Bool
  | .bool | .u8 | .u16 | .u32 | .u64 | .u128 | .i8 | .i16 | .i32 | .i64 | .i128 | .f32 | .f64 => true
  | _ => false

/-- The other leaf types: encode.rs:216-230, size.rs:200-206, decode.rs:217-221. -/
def refLeaf (o : BytesType) : Prim → RefLeaf
  | .bytes | .bytesRef | .boxBytes =>
    match o with
    | .vecU8 => .bytesStd
    | .bytes => .bytesBytes
  | _ => .string

/-- Integer types among the leaf types, which have arms of their own under `Type::NonZero`: encode.rs:271-310,
size.rs:225-234, decode.rs:240-249. -/
def isInt : Prim → Bool
  | .u8 | .u16 | .u32 | .u64 | .u128 | .i8 | .i16 | .i32 | .i64 | .i128 => true
  | _ => false

/-- The types that the other arms under `Type::NonZero` pass on, encode.rs:311-317, size.rs:235-241. -/
def nzInner : Ty → Bool
  | .prim .string | .prim .stringRef | .prim .bytes | .prim .bytesRef | .vec _ | .hashMap _ _ | .hashSet _ => true
  | _ => false

/-! ### size.rs -/

/-- A leaf type in `compile_data_type`, size.rs:187-206. -/
def sizePrim (o : BytesType) (p : Prim) (n : Name) : Expr :=
  if byValue p then .call (.sizeVal p) [n.deref] else .call (.sizeRef (refLeaf o p)) [n.expr]

mutual
/-- `compile_data_type`, size.rs:185-262: the operands of the sum it writes (a tuple has one for each element, and others
are put before and behind it without parentheses). -/
def sizeOps (o : BytesType) : Ty → Name → Option (List Expr)
  | .prim p, n => some [sizePrim o p n]
  | .vec t, n => do pure [.call .sizeVec [n.expr, .closure ["v"] [.tail (add (← sizeOps o t (.var "v")))]]]
  | .hashMap k v, n => do
    pure [.call .sizeHashMap [n.expr, .closure ["k"] [.tail (add (← sizeOps o k (.var "k")))],
      .closure ["v"] [.tail (add (← sizeOps o v (.var "v")))]]]
  | .hashSet t, n => do pure [.call .sizeHashSet [n.expr, .closure ["v"] [.tail (add (← sizeOps o t (.var "v")))]]]
  | .option t, n => do
    pure [.call .sizeOption [n.method .asRef [], .closure ["v"] [.tail (add (← sizeOps o t (.var "v")))]]]
  | .nonZero t, n => sizeNonZero o t n
  | .tuple ts, n => if tupleArm ts.length then sizeItems o ts n 0 else none
  | .array t _, n => do pure [.call .sizeArray [n.expr, .closure ["v"] [.tail (add (← sizeOps o t (.var "v")))]]]
  | .external _ _ _, n => some [n.method .size []]
/-- The arms under `Type::NonZero`, size.rs:224-243. -/
def sizeNonZero (o : BytesType) : Ty → Name → Option (List Expr)
  | .prim p, n =>
    if isInt p then some [.call (.sizeVal p) [n.get.expr]]
    else if nzInner (.prim p) then some [sizePrim o p n.get] else none
  | .vec t, n => do pure [.call .sizeVec [n.get.expr, .closure ["v"] [.tail (add (← sizeOps o t (.var "v")))]]]
  | .hashMap k v, n => do
    pure [.call .sizeHashMap [n.get.expr, .closure ["k"] [.tail (add (← sizeOps o k (.var "k")))],
      .closure ["v"] [.tail (add (← sizeOps o v (.var "v")))]]]
  | .hashSet t, n => do pure [.call .sizeHashSet [n.get.expr, .closure ["v"] [.tail (add (← sizeOps o t (.var "v")))]]]
  | _, _ => none
/-- The elements of a tuple from position `i`, size.rs:246-249. -/
def sizeItems (o : BytesType) : List Ty → Name → Nat → Option (List Expr)
  | [], _, _ => some []
  | t :: ts, n, i => do pure ((← sizeOps o t (n.item i)) ++ (← sizeItems o ts n (i + 1)))
end

/-- `compile_data_type`, size.rs:185-262. -/
def sizeTy (o : BytesType) (t : Ty) (n : Name) : Option Expr := (sizeOps o t n).map add

/-- One field of `compile_struct_fields` and `compile_variant_fields`, size.rs:52-65,148-161. -/
def sizeField (o : BytesType) (f : Field) : Option Expr :=
  match f.ty with
  | .option t => do
    pure (.call .sizeFieldOption [.lit f.id.toNat, .method (.var f.name) .asRef [],
      .closure ["v"] [.tail (← sizeTy o t (.var "v"))]])
  | t => do pure (.call .sizeField [.lit f.id.toNat, .closure [] [.tail (← sizeTy o t (.var f.name))]])

/-- `::mabo::buf::END_MARKER_SIZE` -/
def endMarkerSize : Expr := .const .endMarkerSize

/-- `compile_struct_fields`, size.rs:48-72, and `compile_variant_fields`, size.rs:144-168, as operands. -/
def sizeFields (o : BytesType) (fs : Fields) : Option (List Expr) :=
  if fs.kind = .unit then some [.lit 0]
  else do pure ((← all (fs.fields.map (sizeField o))) ++ [endMarkerSize])

/-- `::mabo::buf::size_variant_id(id)` -/
def sizeVariantId (id : BitVec 32) : Expr := .call .sizeVariantId [.lit id.toNat]

/-- `compile_variant`, size.rs:105-142. -/
def sizeVariant (o : BytesType) (v : Variant) : Option Arm := do
  let fs ← sizeFields o v.fields
  pure (.mk (.variant v.name v.fields.kind (v.fields.fields.map (·.name)))
    (.block [.tail (if v.fields.kind = .unit then sizeVariantId v.id else add (sizeVariantId v.id :: fs))]))

/-- The lints named in size.rs:31-37 and encode.rs:32-38. -/
def structLints : List String :=
  ["borrow_deref_ref", "deref_addrof", "explicit_auto_deref", "needless_borrow", "too_many_lines"]
/-- The lints named in size.rs:90-95 and encode.rs:62-67. -/
def enumLints : List String :=
  ["borrow_deref_ref", "deref_addrof", "semicolon_if_nothing_returned", "too_many_lines"]

/-- `::mabo::buf::Size` -/
def sizeTrait : List String := ["mabo", "buf", "Size"]

/-- The implementation around a body in size.rs:27-44,86-103; the bounds are in `compile_generics`, size.rs:170-182. -/
def sizeImpl (name : String) (generics : List String) (lints : List String) (body : List Stmt) : Impl where
  trait := sizeTrait
  name := name
  generics := generics
  bounds := [sizeTrait]
  lints := lints
  signature := ["fn", "size", "(", "&", "self", ")", "->", "usize"]
  body := body

/-- `compile_struct`, size.rs:7-46. -/
def sizeStruct (o : BytesType) (s : Struct) : Option Impl := do
  let fs ← sizeFields o s.fields
  pure (sizeImpl s.name s.generics structLints
    [.unpack s.fields.kind (s.fields.fields.map (·.name)), .tail (add fs)])

/-- `compile_enum`, size.rs:74-103. -/
def sizeEnum (o : BytesType) (e : Enum) : Option Impl := do
  let vs ← all (e.variants.map (sizeVariant o))
  pure (sizeImpl e.name e.generics enumLints [.tail (.match (.var "self") vs)])

/-! ### encode.rs -/

/-- The first component of `compile_data_type`, encode.rs:155-355. -/
def marker : Ty → Buf.FieldEncoding
  | .prim p =>
    match p with
    | .bool | .u8 | .i8 => .fixed1
    | .u16 | .u32 | .u64 | .u128 | .i16 | .i32 | .i64 | .i128 => .varint
    | .f32 => .fixed4
    | .f64 => .fixed8
    | _ => .lengthPrefixed
  | .nonZero t => marker t
  | _ => .lengthPrefixed

/-- A leaf type in `compile_data_type`, encode.rs:162-230. -/
def encodePrim (o : BytesType) (p : Prim) (n : Name) : Expr :=
  if byValue p then .call (.encVal p) [w, n.deref] else .call (.encRef (refLeaf o p)) [w, n.expr]

mutual
/-- The second component of `compile_data_type`, encode.rs:155-355, with the `;` that is written behind it wherever it is
used. `root` as there. -/
def encodeTy (o : BytesType) (root : Bool) : Ty → Name → Option (List Stmt)
  | .prim p, n => some [.semi (encodePrim o p n)]
  | .vec t, n => do
    pure [.semi (.call .encVec [w, n.expr, .closure ["v"] [.tail (← sizeTy o t (.var "v"))],
      .closure ["w", "v"] (← encodeTy o false t (.var "v"))])]
  | .hashMap k v, n => do
    pure [.semi (.call .encHashMap [w, n.expr, .closure ["k"] [.tail (← sizeTy o k (.var "k"))],
      .closure ["v"] [.tail (← sizeTy o v (.var "v"))], .closure ["w", "k"] (← encodeTy o false k (.var "k")),
      .closure ["w", "v"] (← encodeTy o false v (.var "v"))])]
  | .hashSet t, n => do
    pure [.semi (.call .encHashSet [w, n.expr, .closure ["v"] [.tail (← sizeTy o t (.var "v"))],
      .closure ["w", "v"] (← encodeTy o false t (.var "v"))])]
  | .option t, n => do
    pure [.semi (.call .encOption [w, n.expr, .closure ["w", "v"] (← encodeTy o false t (.var "v"))])]
  | .nonZero t, n => encodeNonZero o t n
  | .tuple ts, n =>
    if tupleArm ts.length then
      if root then do
        pure [.semi (.call .encTuple [w, .closure [] [.tail (add (← sizeItems o ts n 0))],
          .closure ["w"] (← encodeItems o ts n 0)])]
      else do pure ((← encodeItems o ts n 0) ++ [.empty])
    else none
  | .array t _, n => do
    pure [.semi (.call .encArray [w, n.expr, .closure ["v"] [.tail (← sizeTy o t (.var "v"))],
      .closure ["w", "v"] (← encodeTy o false t (.var "v"))])]
  | .external _ _ _, n => some [.semi (n.method .encode [w])]
/-- The arms under `Type::NonZero`, encode.rs:270-319. -/
def encodeNonZero (o : BytesType) : Ty → Name → Option (List Stmt)
  | .prim p, n =>
    if isInt p then some [.semi (.call (.encVal p) [w, n.get.expr])]
    else if nzInner (.prim p) then some [.semi (encodePrim o p n.get)] else none
  | .vec t, n => do
    pure [.semi (.call .encVec [w, n.get.expr, .closure ["v"] [.tail (← sizeTy o t (.var "v"))],
      .closure ["w", "v"] (← encodeTy o false t (.var "v"))])]
  | .hashMap k v, n => do
    pure [.semi (.call .encHashMap [w, n.get.expr, .closure ["k"] [.tail (← sizeTy o k (.var "k"))],
      .closure ["v"] [.tail (← sizeTy o v (.var "v"))], .closure ["w", "k"] (← encodeTy o false k (.var "k")),
      .closure ["w", "v"] (← encodeTy o false v (.var "v"))])]
  | .hashSet t, n => do
    pure [.semi (.call .encHashSet [w, n.get.expr, .closure ["v"] [.tail (← sizeTy o t (.var "v"))],
      .closure ["w", "v"] (← encodeTy o false t (.var "v"))])]
  | _, _ => none
/-- The elements of a tuple from position `i`, encode.rs:322-325. -/
def encodeItems (o : BytesType) : List Ty → Name → Nat → Option (List Stmt)
  | [], _, _ => some []
  | t :: ts, n, i => do pure ((← encodeTy o false t (n.item i)) ++ (← encodeItems o ts n (i + 1)))
end

/-- `::mabo::FieldId::new(id, enc)`, encode.rs:125,129. -/
def fieldId (id : BitVec 32) (t : Ty) : Expr :=
  .call .fieldId [.lit id.toNat, .const (.encoding (marker t))]

/-- One field of `compile_fields`, encode.rs:119-132. -/
def encodeField (o : BytesType) (f : Field) : Option Stmt :=
  match f.ty with
  | .option t => do
    pure (.semi (.call .encFieldOption [w, fieldId f.id t, .var f.name,
      .closure ["w", "v"] (← encodeTy o true t (.var "v"))]))
  | t => do
    pure (.semi (.call .encField [w, fieldId f.id t, .closure ["w"] (← encodeTy o true t (.var f.name))]))

/-- `compile_fields`, encode.rs:115-139. -/
def encodeFields (o : BytesType) (fs : Fields) : Option (List Stmt) :=
  if fs.kind = .unit then some []
  else do pure ((← all (fs.fields.map (encodeField o))) ++ [.semi (.call (.encVal .u32) [w, .const .endMarker])])

/-- `compile_variant`, encode.rs:77-113. -/
def encodeVariant (o : BytesType) (v : Variant) : Option Arm := do
  let fs ← encodeFields o v.fields
  pure (.mk (.variant v.name v.fields.kind (v.fields.fields.map (·.name)))
    (.block (.semi (.call .encVariantId [w, .call .variantId [.lit v.id.toNat]]) :: fs)))

/-- The implementation around a body in encode.rs:29-47,58-75; the bounds are in `compile_generics`, encode.rs:141-153. -/
def encodeImpl (name : String) (generics : List String) (lints : List String) (body : List Stmt) : Impl where
  trait := ["mabo", "Encode"]
  name := name
  generics := generics
  bounds := [["mabo", "buf", "Encode"], sizeTrait]
  lints := lints
  signature := ["fn", "encode", "(", "&", "self", ",", "w", ":", "&", "mut", "impl", "::", "mabo", "::", "BufMut", ")"]
  body := body

/-- `compile_struct`, encode.rs:7-47. -/
def encodeStruct (o : BytesType) (s : Struct) : Option Impl := do
  let fs ← encodeFields o s.fields
  pure (encodeImpl s.name s.generics structLints (.unpack s.fields.kind (s.fields.fields.map (·.name)) :: fs))

/-- `compile_enum`, encode.rs:49-75. -/
def encodeEnum (o : BytesType) (e : Enum) : Option Impl := do
  let vs ← all (e.variants.map (encodeVariant o))
  pure (encodeImpl e.name e.generics enumLints [.tail (.match (.var "self") vs)])

/-! ### decode.rs -/

/-- `|r| { e }` -/
def reading (e : Expr) : Expr := .closure ["r"] [.tail e]

mutual
/-- `compile_data_type`, decode.rs:201-309. -/
def decodeTy (o : BytesType) (root : Bool) : Ty → Option Expr
  | .prim .boxString => some (.decode ⟨.path false ["Box"] [one "str"], .prim .boxString⟩ r)
  | .prim .boxBytes => some (.decode ⟨.path false ["Box"] [.slice (one "u8")], .prim .boxBytes⟩ r)
  | .prim p =>
    if byValue p then some (.call (.decVal p) [r]) else some (.call (.decRef (refLeaf o p)) [r])
  | .vec t => do pure (.call .decVec [r, reading (← decodeTy o false t)])
  | .hashMap k v => do pure (.call .decHashMap [r, reading (← decodeTy o false k), reading (← decodeTy o false v)])
  | .hashSet t => do pure (.call .decHashSet [r, reading (← decodeTy o false t)])
  | .option t => do pure (.call .decOption [r, reading (← decodeTy o false t)])
  | .nonZero (.prim p) =>
    if isInt p then some (.call (.decNzVal p) [r])
    else if nzInner (.prim p) then some (.call (.decNzRef (refLeaf o p)) [r]) else none
  | .nonZero (.vec t) => do pure (.call .decNzVec [r, reading (← decodeTy o false t)])
  | .nonZero (.hashMap k v) => do
    pure (.call .decNzHashMap [r, reading (← decodeTy o false k), reading (← decodeTy o false v)])
  | .nonZero (.hashSet t) => do pure (.call .decNzHashSet [r, reading (← decodeTy o false t)])
  | .nonZero _ => none
  | .tuple ts =>
    if tupleArm ts.length then do
      pure (.block ((if root then [.semi (.try (.call (.decVal .u64) [r]))] else []) ++
        [.tail (.okTyped (.tuple (← decodeItems o ts)))]))
    else none
  | .array t _ => do pure (.call .decArray [r, reading (← decodeTy o false t)])
  | .external path name generics => do
    pure (.decode ⟨← tyText o (.external path name generics), .external path name generics⟩ r)
/-- The elements of a tuple with `?`, decode.rs:280,284. -/
def decodeItems (o : BytesType) : List Ty → Option (List Expr)
  | [] => some []
  | t :: ts => do pure (.try (← decodeTy o false t) :: (← decodeItems o ts))
end

/-- One field of `compile_field_vars`, decode.rs:119-136. -/
def fieldVar (o : BytesType) (f : Field) : Option Stmt := do
  let text ← tyText o f.ty
  match f.ty with
  | .option t => pure (.slot f.name ⟨text, .option t⟩ .none)
  | t => pure (.slot f.name ⟨.path false ["Option"] [text], .option t⟩ .none)

/-- `if let Type::Option(ty) = &ty { ty } else { ty }`, decode.rs:142. -/
def fieldTy : Ty → Ty
  | .option t => t
  | t => t

/-- One field of `compile_field_matches`, decode.rs:138-148. -/
def fieldArm (o : BytesType) (f : Field) : Option Arm := do
  pure (.mk (.lit f.id.toNat) (.assign f.name (.wrap .some (.try (← decodeTy o true (fieldTy f.ty))))))

/-- One field of `compile_field_assigns`, decode.rs:150-184. -/
def fieldAssign (kind : FieldKind) (f : Field) : Expr :=
  match f.ty with
  | .option _ => .var f.name
  | _ => .try (.method (.var f.name) .okOr [.missing f.id.toNat (if kind = .named then some f.name else Option.none)])

/-- The body of a decoder for fields, decode.rs:24-41 and 97-115; `variant` is the name of the variant. -/
def decodeFields (o : BytesType) (variant : Option String) (fs : Fields) : Option (List Stmt) := do
  let vars ← all (fs.fields.map (fieldVar o))
  let arms ← all (fs.fields.map (fieldArm o))
  if fs.kind = .unit then pure [.tail (.wrap .ok (.build variant .unit [] []))]
  else
    pure (vars ++
      [.tail (.loop
        [.bind "id" (.try (.call .decId [r])),
         .tail (.match (.member (.var "id") .value)
          (.mk (.const .endMarker) .break :: arms ++
            [.mk .wild (.try (.call .decSkip [r, .member (.var "id") .encoding]))]))]),
       .tail (.wrap .ok (.build variant fs.kind (fs.fields.map (·.name)) (fs.fields.map (fieldAssign fs.kind))))])

/-- `compile_variant`, decode.rs:79-117. -/
def decodeVariant (o : BytesType) (v : Variant) : Option Arm := do
  let body ← decodeFields o (some v.name) v.fields
  pure (.mk (.lit v.id.toNat)
    (if v.fields.kind = .unit then .wrap .ok (.build (some v.name) .unit [] []) else .block body))

/-- The implementation around a body in decode.rs:43-51,66-77; the bounds are in `compile_generics`, decode.rs:187-199. -/
def decodeImpl (name : String) (generics : List String) (lints : List String) (body : List Stmt) : Impl where
  trait := ["mabo", "Decode"]
  name := name
  generics := generics
  bounds := [["std", "fmt", "Debug"], ["mabo", "buf", "Decode"]]
  lints := lints
  signature := ["fn", "decode", "(", "r", ":", "&", "mut", "impl", "::", "mabo", "::", "Buf", ")", "->", "::", "mabo", "::",
    "buf", "::", "Result", "<", "Self", ">"]
  body := body

/-- `compile_struct`, decode.rs:9-52. -/
def decodeStruct (o : BytesType) (s : Struct) : Option Impl := do
  pure (decodeImpl s.name s.generics ["type_complexity", "too_many_lines"] (← decodeFields o Option.none s.fields))

/-- `compile_enum`, decode.rs:54-77. -/
def decodeEnum (o : BytesType) (e : Enum) : Option Impl := do
  let vs ← all (e.variants.map (decodeVariant o))
  pure (decodeImpl e.name e.generics ["too_many_lines"]
    [.tail (.match (.member (.try (.call .decVariantId [r])) .value)
      (vs ++ [.mk (.bind "id") (.wrap .err (.unknown (.var "id")))]))])

/-! ### Definitions: definition.rs -/

/-- `compile_fields`, definition.rs:231-257. -/
def fieldDefs' (o : BytesType) (fs : Fields) : Option (List FieldDef) :=
  all (fs.fields.map fun f => do pure ⟨f.comment, f.name, ← tyText o f.ty, f.ty⟩)

/-- `compile_const_data_type`, definition.rs:357-376. -/
def constTy : Ty → Option TyE
  | .prim p =>
    match p with
    | .string | .stringRef => some (.ref (one "str"))
    | .bytes | .bytesRef => some (.ref (.slice (one "u8")))
    | .boxString | .boxBytes => none
    | p => some (primTy .vecU8 p)
  | _ => none

mutual
/-- `compile_definition`, definition.rs:24-57, with `compile_module` … `compile_import` (59-217). -/
def compileDefinition (o : BytesType) : Definition → Option (List Item)
  | .module comment name ds => do pure [.module comment name (.traits :: (← compileDefinitions o ds))]
  | .struct s => do
    pure [.struct s.comment s.name s.generics s.fields.kind (← fieldDefs' o s.fields), .impl (← encodeStruct o s),
      .impl (← decodeStruct o s), .impl (← sizeStruct o s)]
  | .enum e => do
    let vs ← all (e.variants.map fun v => do pure (⟨v.comment, v.name, v.fields.kind, ← fieldDefs' o v.fields⟩ : VariantDef))
    pure [.enum e.comment e.name e.generics vs, .impl (← encodeEnum o e), .impl (← decodeEnum o e), .impl (← sizeEnum o e)]
  | .typeAlias a => do pure [.alias a.comment a.name a.generics (← tyText o a.target)]
  | .const c => do pure [.const c.comment c.name (← constTy c.ty) c.value]
  | .import segments element => some [.import (segments ++ element.toList)]
/-- On all definitions. -/
def compileDefinitions (o : BytesType) : List Definition → Option (List Item)
  | [] => some []
  | d :: ds => do pure ((← compileDefinition o d) ++ (← compileDefinitions o ds))
end

/-- `compile_schema`, definition.rs:13-22. -/
def compileSchema (o : BytesType) (s : Schema) : Option (List Item) := do
  pure (.traits :: (← compileDefinitions o s.definitions))

end Mabo.Rust
