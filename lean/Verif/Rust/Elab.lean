import Verif.Rust.Types
/-!
Meaning of the Rust of `Rust/Syntax.lean`: type checking and execution, in one pass. `none` means that the code does not
compile; otherwise the result is the type and what happens when it is executed.

Simplifications.
References are transparent in values (there is no mutation behind them except of the reader and the writer, which are part
of the state); in types they are kept, with Rust's automatic dereferencing where it applies. A place behind a reference that
is used as a value is not checked to be `Copy` except by `*`. Patterns with named fields, and struct expressions, have to
name the fields in the order of the definition, which is how they are generated. Types are the same if they are the same
Rust type. The functions of the runtime crate are those of `Verif/Buf.lean`; a `usize` is a natural number as there. A value
that does not have the shape its type says (which does not happen) gives `panic`.
-/
namespace Mabo.Rust
open Mabo.Buf Mabo.Varint Mabo.Codegen
open Mabo.Schema (Prim Ty Val FieldKind Def)

/-! ### Types of expressions -/

/-- The type of an expression. -/
inductive RType where
  /-- The Rust type of a type of the schema. -/
  | own (t : Ty)
  | ref (t : RType)
  /-- `Option<&T>` -/
  | optRef (t : Ty)
  | usize
  | unit
  | never
  | fieldId
  | variantId
  | encoding
  | error
  /-- `::mabo::buf::Result<T>` -/
  | result (t : RType)
  /-- `&mut impl BufMut` -/
  | writer
  /-- `&mut impl Buf` -/
  | reader

/-- `u32` -/
def RType.u32 : RType := .own (.prim .u32)

/-- The same Rust type. -/
def RType.same (o : BytesType) : RType → RType → Bool
  | .own a, .own b => rustOf o a = rustOf o b
  | .ref a, .ref b => a.same o b
  | .optRef a, .optRef b => rustOf o a = rustOf o b
  | .usize, .usize | .unit, .unit | .never, .never | .fieldId, .fieldId | .variantId, .variantId | .encoding, .encoding
  | .error, .error | .writer, .writer | .reader, .reader => true
  | .result a, .result b => a.same o b
  | _, _ => false

/-- The type behind all references. -/
def RType.strip : RType → RType
  | .ref t => t.strip
  | t => t

/-- The type behind at least one reference: what `&T` can be after automatic dereferencing. -/
def RType.behind : RType → Option RType
  | .ref t => some t.strip
  | _ => none

/-! ### Values and outcomes -/

/-- The value of an expression. -/
inductive RVal where
  | unit
  | val (v : Val)
  | usize (n : Nat)
  | fieldId (i : FieldId)
  | variantId (i : BitVec 32)
  | encoding (e : FieldEncoding)
  | error (e : Error)
  | ok (v : RVal)
  | fail (e : Error)

/-- The state: bytes not yet read, bytes written, variables (the newest first). -/
structure St where
  input : Bytes
  output : Bytes
  vars : List (String × RVal)

/-- How an execution ends: with a value, by `?` with an error, by `break`, with a panic, or not at all. -/
inductive Out where
  | ok (v : RVal) (s : St)
  | ret (e : Error)
  | brk (s : St)
  | panic
  | hang

/-- One after the other. -/
def Out.bind : Out → (RVal → St → Out) → Out
  | .ok v s, k => k v s
  | .ret e, _ => .ret e
  | .brk s, _ => .brk s
  | .panic, _ => .panic
  | .hang, _ => .hang

/-- What the traits do for the types of the schema, after inserting the type arguments; `none` if it does not end. -/
structure World where
  enc : Ty → Val → Option Bytes
  size : Ty → Val → Option Nat
  dec : Ty → Dec Val

/-- An execution. -/
abbrev M := World → St → Out

/-- A value without any effect. -/
def pureM (v : RVal) : M := fun _ s => .ok v s

/-- One after the other. -/
def M.bind (m : M) (k : RVal → M) : M := fun W s => (m W s).bind fun v s => k v W s

/-- With the Rust value inside. -/
def onVal (k : Val → M) : RVal → M
  | .val v => k v
  | _ => fun _ _ => .panic

/-! ### Type checking -/

/-- What is known at a place in the code. -/
structure Ctx where
  opts : BytesType
  scope : Scope
  /-- The type `Self`. -/
  selfTy : Ty
  /-- Its definition. -/
  self : Def
  /-- What the function or closure around returns. -/
  ret : RType
  /-- Inside of a loop. -/
  inLoop : Bool
  /-- The variables with their types, and whether they are `mut`. -/
  vars : List (String × RType × Bool)

/-- With a variable. -/
def Ctx.push (c : Ctx) (x : String) (t : RType) (mutable : Bool) : Ctx := { c with vars := (x, t, mutable) :: c.vars }

/-- The variable of a name. -/
def Ctx.find (c : Ctx) (x : String) : Option (RType × Bool) := c.vars.lookup x

/-- Checks and gives the meaning; the second argument is the type that is expected, if one is known. -/
abbrev Elab := Ctx → Option RType → Option (RType × M)

/-- With a type that must be the given one. -/
def Elab.check (e : Elab) (c : Ctx) (t : RType) : Option M :=
  match e c (some t) with
  | some (u, m) => if u.same c.opts t then some m else none
  | none => none

/-- An argument of a function: an expression or a closure. -/
structure Arg where
  plain : Elab
  clos : Option (List String × Elab)

/-- An expression. -/
def Arg.expr (e : Elab) : Arg := ⟨e, none⟩

/-- Variables for the parameters. -/
def bindAll : List String → List RVal → List (String × RVal)
  | x :: xs, v :: vs => bindAll xs vs ++ [(x, v)]
  | _, _ => []

/-- Types of the parameters. -/
def typeAll : List String → List RType → List (String × RType × Bool)
  | x :: xs, t :: ts => typeAll xs ts ++ [(x, t, false)]
  | _, _ => []

/-- Is the type a reader or writer? -/
def RType.isPort : RType → Bool
  | .reader | .writer => true
  | _ => false

/-- Inside of a closure. It borrows what it mentions, so that the reader or writer passed to the same call cannot be mentioned
in it: only those given as parameters are visible. -/
def Ctx.clos (c : Ctx) (xs : List String) (params : List RType) (ret : RType) : Ctx :=
  { c with ret := ret, inLoop := false, vars := typeAll xs params ++ c.vars.filter fun v => !v.2.1.isPort }

/-- A call of a closure. -/
def closM (xs : List String) (m : M) (vs : List RVal) : M := fun W s =>
  match m W { s with vars := bindAll xs vs ++ s.vars } with
  | .ok v s' => .ok v { s' with vars := s.vars }
  | .ret e => .ok (.fail e) s
  | .brk _ => .panic
  | .panic => .panic
  | .hang => .hang

/-- A closure with the given types of parameters and result, as a function on values. -/
def Arg.fn (a : Arg) (c : Ctx) (params : List RType) (ret : RType) : Option (List RVal → M) :=
  match a.clos with
  | some (xs, body) =>
    if xs.length = params.length ∧ xs.Nodup then (body.check (c.clos xs params ret) ret).map (closM xs) else none
  | none => none

/-- An argument that is the writer. -/
def Arg.writer (a : Arg) (c : Ctx) : Option Unit :=
  match a.plain c (some .writer) with
  | some (.writer, _) => some ()
  | _ => none

/-- An argument that is the reader. -/
def Arg.reader (a : Arg) (c : Ctx) : Option Unit :=
  match a.plain c (some .reader) with
  | some (.reader, _) => some ()
  | _ => none

/-- An argument for a parameter `&T`: the type behind the references. -/
def Arg.behind (a : Arg) (c : Ctx) : Option (Ty × M) :=
  match a.plain c none with
  | some (t, m) =>
    match t.behind with
    | some (.own t) => some (t, m)
    | _ => none
  | none => none

/-! ### Pieces of executions -/

/-- Write bytes. -/
def St.write (s : St) (b : Bytes) : St := { s with output := s.output ++ b }

/-- Write bytes. -/
def writeM (b : Bytes) : M := fun _ s => .ok .unit (s.write b)

/-- `iter().map(size).sum::<usize>()` -/
def sumM (f : Val → M) : List Val → M
  | [] => pureM (.usize 0)
  | v :: vs => (f v).bind fun a => (sumM f vs).bind fun b =>
    match a, b with
    | .usize a, .usize b => pureM (.usize (a + b))
    | _, _ => fun _ _ => .panic

/-- `for value in values { f(value) }` -/
def eachM (f : Val → M) : List Val → M
  | [] => pureM .unit
  | v :: vs => (f v).bind fun _ => eachM f vs

/-- The elements of a vector, set or array. -/
def onList (k : List Val → M) : RVal → M
  | .val (.list xs) => k xs
  | _ => fun _ _ => .panic

/-- On the parts of an entry of a map. -/
def onPair (k : Val → Val → M) : Val → M
  | .pair a b => k a b
  | _ => fun _ _ => .panic

/-- On a number. -/
def onUsize (k : Nat → M) : RVal → M
  | .usize n => k n
  | _ => fun _ _ => .panic

/-- `a + b` of two numbers. -/
def addM (a b : M) : M := a.bind (onUsize fun a => b.bind (onUsize fun b => pureM (.usize (a + b))))

/-- An outcome of reading. -/
def readM (d : World → St → Res RVal) : M := fun W s =>
  match d W s with
  | .ok v r => .ok (.ok v) { s with input := r }
  | .err e => .ok (.fail e) s
  | .panic => .panic
  | .hang => .hang

/-- A closure that reads, as a decoder; variables and written bytes cannot change in it. -/
def asDec (f : List RVal → M) (W : World) (s : St) : Dec Val := fun r =>
  match f [.unit] W { s with input := r } with
  | .ok (.ok (.val v)) s' => .ok v s'.input
  | .ok (.fail e) _ => .err e
  | .hang => .hang
  | _ => .panic

/-- A leaf value. -/
def decM (d : Dec Val) : M := readM fun _ s => (d s.input).map .val

/-- The leaf type of a function for references. -/
def RefLeaf.prim : RefLeaf → Prim
  | .string => .string
  | .bytesStd | .bytesBytes => .bytes

/-- What `&str`, `&[u8]` and `&Bytes` can be after automatic dereferencing (`String`, `Box<str>`; `Vec<u8>`, `Box<[u8]>`,
`Bytes`; `Bytes`). -/
def RefLeaf.accepts (o : BytesType) : RefLeaf → Ty → Bool
  | .string, .prim p => p = .string || p = .stringRef || p = .boxString
  | .bytesStd, .prim p => p = .bytes || p = .bytesRef || p = .boxBytes
  | .bytesBytes, .prim p => o = .bytes && (p = .bytes || p = .bytesRef)
  | _, _ => false

/-- What the decoders for them return: `String`, `Vec<u8>`, `Bytes`. -/
def RefLeaf.returns (o : BytesType) : RefLeaf → Bool
  | .string => true
  | .bytesStd => o = .vecU8
  | .bytesBytes => o = .bytes

/-- The functions of the runtime crate: `crates/mabo/src/buf/{encode,size,decode}.rs` and `crates/mabo/src/lib.rs:34-36,105-107`
with their types. -/
def callSem (f : Fn) (args : List Arg) : Elab := fun c exp =>
  match f, args with
  -- encode.rs:8-48
  | .encVal p, [w, x] => do
    w.writer c
    let m ← x.plain.check c (.own (.prim p))
    if byValue p then some (.unit, m.bind (onVal fun v => writeM (encRep p.rep v))) else none
  -- encode.rs:51-64
  | .encRef k, [w, x] => do
    w.writer c
    let (t, m) ← x.behind c
    if k.accepts c.opts t then some (.unit, m.bind (onVal fun v => writeM (encRep k.prim.rep v))) else none
  -- encode.rs:67-78
  | .encVec, [w, x, sz, en] => do
    w.writer c
    let (t, m) ← x.behind c
    match t with
    | .vec t =>
      let sz ← sz.fn c [.ref (.own t)] .usize
      let en ← en.fn c [.writer, .ref (.own t)] .unit
      some (.unit, m.bind (onList fun xs => (sumM (fun v => sz [.val v]) xs).bind (onUsize fun n =>
        (writeM (encLen n)).bind fun _ => eachM (fun v => en [.unit, .val v]) xs)))
    | _ => none
  -- encode.rs:81-106
  | .encHashMap, [w, x, sk, sv, ek, ev] => do
    w.writer c
    let (t, m) ← x.behind c
    match t with
    | .hashMap k v =>
      let sk ← sk.fn c [.ref (.own k)] .usize
      let sv ← sv.fn c [.ref (.own v)] .usize
      let ek ← ek.fn c [.writer, .ref (.own k)] .unit
      let ev ← ev.fn c [.writer, .ref (.own v)] .unit
      some (.unit, m.bind (onList fun xs =>
        (sumM (onPair fun a b => addM (sk [.val a]) (sv [.val b])) xs).bind (onUsize fun n =>
          (writeM (encLen n)).bind fun _ =>
            eachM (onPair fun a b => (ek [.unit, .val a]).bind fun _ => ev [.unit, .val b]) xs)))
    | _ => none
  -- encode.rs:109-120
  | .encHashSet, [w, x, sz, en] => do
    w.writer c
    let (t, m) ← x.behind c
    match t with
    | .hashSet t =>
      let sz ← sz.fn c [.ref (.own t)] .usize
      let en ← en.fn c [.writer, .ref (.own t)] .unit
      some (.unit, m.bind (onList fun xs => (sumM (fun v => sz [.val v]) xs).bind (onUsize fun n =>
        (writeM (encLen n)).bind fun _ => eachM (fun v => en [.unit, .val v]) xs)))
    | _ => none
  -- encode.rs:123-134
  | .encOption, [w, x, en] => do
    w.writer c
    let (t, m) ← x.behind c
    match t with
    | .option t =>
      let en ← en.fn c [.writer, .ref (.own t)] .unit
      some (.unit, m.bind (onVal fun v =>
        match v with
        | .some v => (writeM [1]).bind fun _ => en [.unit, .val v]
        | .none => writeM [0]
        | _ => fun _ _ => .panic))
    | _ => none
  -- encode.rs:137-148
  | .encArray, [w, x, sz, en] => do
    w.writer c
    let (t, m) ← x.behind c
    match t with
    | .array t _ =>
      let sz ← sz.fn c [.ref (.own t)] .usize
      let en ← en.fn c [.writer, .ref (.own t)] .unit
      some (.unit, m.bind (onList fun xs => (sumM (fun v => sz [.val v]) xs).bind (onUsize fun n =>
        (writeM (encLen n)).bind fun _ => eachM (fun v => en [.unit, .val v]) xs)))
    | _ => none
  -- encode.rs:152-160
  | .encTuple, [w, sz, en] => do
    w.writer c
    let sz ← sz.fn c [] .usize
    let en ← en.fn c [.writer] .unit
    some (.unit, (sz []).bind (onUsize fun n => (writeM (encLen n)).bind fun _ => en [.unit]))
  -- encode.rs:176-183
  | .encField, [w, id, en] => do
    w.writer c
    let id ← id.plain.check c .fieldId
    let en ← en.fn c [.writer] .unit
    some (.unit, id.bind fun id =>
      match id with
      | .fieldId id => (writeM (encId id)).bind fun _ => en [.unit]
      | _ => fun _ _ => .panic)
  -- encode.rs:187-196
  | .encFieldOption, [w, id, x, en] => do
    w.writer c
    let id ← id.plain.check c .fieldId
    let (t, m) ← x.behind c
    match t with
    | .option t =>
      let en ← en.fn c [.writer, .ref (.own t)] .unit
      some (.unit, id.bind fun id =>
        match id with
        | .fieldId id => m.bind (onVal fun v =>
          match v with
          | .some v => (writeM (encId id)).bind fun _ => en [.unit, .val v]
          | .none => pureM .unit
          | _ => fun _ _ => .panic)
        | _ => fun _ _ => .panic)
    | _ => none
  -- encode.rs:170-172
  | .encVariantId, [w, id] => do
    w.writer c
    let id ← id.plain.check c .variantId
    some (.unit, id.bind fun id =>
      match id with
      | .variantId id => writeM (Buf.encVariantId id)
      | _ => fun _ _ => .panic)
  -- size.rs:27-52
  | .sizeVal p, [x] => do
    let m ← x.plain.check c (.own (.prim p))
    if byValue p then some (.usize, m.bind (onVal fun v => pureM (.usize (sizeRep p.rep v)))) else none
  -- size.rs:56-69
  | .sizeRef k, [x] => do
    let (t, m) ← x.behind c
    if k.accepts c.opts t then some (.usize, m.bind (onVal fun v => pureM (.usize (sizeRep k.prim.rep v)))) else none
  -- size.rs:72-77
  | .sizeVec, [x, sz] => do
    let (t, m) ← x.behind c
    match t with
    | .vec t =>
      let sz ← sz.fn c [.ref (.own t)] .usize
      some (.usize, m.bind (onList fun xs => addM (pureM (.usize (sizeLen xs.length))) (sumM (fun v => sz [.val v]) xs)))
    | _ => none
  -- size.rs:80-90
  | .sizeHashMap, [x, sk, sv] => do
    let (t, m) ← x.behind c
    match t with
    | .hashMap k v =>
      let sk ← sk.fn c [.ref (.own k)] .usize
      let sv ← sv.fn c [.ref (.own v)] .usize
      some (.usize, m.bind (onList fun xs => addM (pureM (.usize (sizeLen xs.length)))
        (sumM (onPair fun a b => addM (sk [.val a]) (sv [.val b])) xs)))
    | _ => none
  -- size.rs:93-98
  | .sizeHashSet, [x, sz] => do
    let (t, m) ← x.behind c
    match t with
    | .hashSet t =>
      let sz ← sz.fn c [.ref (.own t)] .usize
      some (.usize, m.bind (onList fun xs => addM (pureM (.usize (sizeLen xs.length))) (sumM (fun v => sz [.val v]) xs)))
    | _ => none
  -- size.rs:101-106
  | .sizeOption, [x, sz] => do
    let (t, m) ← x.plain c none
    match t with
    | .optRef t =>
      let sz ← sz.fn c [.ref (.own t)] .usize
      some (.usize, m.bind (onVal fun v =>
        match v with
        | .some v => addM (pureM (.usize 1)) (sz [.val v])
        | .none => pureM (.usize 1)
        | _ => fun _ _ => .panic))
    | _ => none
  -- size.rs:109-114
  | .sizeArray, [x, sz] => do
    let (t, m) ← x.behind c
    match t with
    | .array t n =>
      let sz ← sz.fn c [.ref (.own t)] .usize
      some (.usize, m.bind (onList fun xs => addM (pureM (.usize (sizeLen n))) (sumM (fun v => sz [.val v]) xs)))
    | _ => none
  -- size.rs:132-137
  | .sizeField, [id, sz] => do
    let id ← id.plain.check c .u32
    let sz ← sz.fn c [] .usize
    some (.usize, id.bind (onVal fun id =>
      match id with
      | .num id => addM (pureM (.usize (sizeFieldId (BitVec.ofNat 32 id)))) (sz [])
      | _ => fun _ _ => .panic))
  -- size.rs:141-146
  | .sizeFieldOption, [id, x, sz] => do
    let id ← id.plain.check c .u32
    let (t, m) ← x.plain c none
    match t with
    | .optRef t =>
      let sz ← sz.fn c [.ref (.own t)] .usize
      some (.usize, id.bind (onVal fun id =>
        match id with
        | .num id => m.bind (onVal fun v =>
          match v with
          | .some v => addM (pureM (.usize (sizeFieldId (BitVec.ofNat 32 id)))) (sz [.val v])
          | .none => pureM (.usize 0)
          | _ => fun _ _ => .panic)
        | _ => fun _ _ => .panic))
    | _ => none
  -- size.rs:126-128
  | .sizeVariantId, [id] => do
    let id ← id.plain.check c .u32
    some (.usize, id.bind (onVal fun id =>
      match id with
      | .num id => pureM (.usize (Buf.sizeVariantId (BitVec.ofNat 32 id)))
      | _ => fun _ _ => .panic))
  -- decode.rs:61-128
  | .decVal p, [r] => do
    r.reader c
    if byValue p then some (.result (.own (.prim p)), decM (decRep p.rep)) else none
  -- decode.rs:136-162
  | .decRef k, [r] => do
    r.reader c
    if k.returns c.opts then some (.result (.own (.prim k.prim)), decM (decRep k.prim.rep)) else none
  -- decode.rs:170-186
  | .decVec, [r, d] => do
    r.reader c
    match exp with
    | some (.result (.own (.vec t))) =>
      let d ← d.fn c [.reader] (.result (.own t))
      some (.result (.own (.vec t)), readM fun W s => (Buf.decVec (asDec d W s) s.input).map fun xs => .val (.list xs))
    | _ => none
  -- decode.rs:194-216
  | .decHashMap, [r, dk, dv] => do
    r.reader c
    match exp with
    | some (.result (.own (.hashMap k v))) =>
      let dk ← dk.fn c [.reader] (.result (.own k))
      let dv ← dv.fn c [.reader] (.result (.own v))
      if hashable k then
        some (.result (.own (.hashMap k v)), readM fun W s =>
          (Buf.decHashMap (asDec dk W s) (asDec dv W s) s.input).map fun es => .val (.list (es.map toPair)))
      else none
    | _ => none
  -- decode.rs:224-241
  | .decHashSet, [r, d] => do
    r.reader c
    match exp with
    | some (.result (.own (.hashSet t))) =>
      let d ← d.fn c [.reader] (.result (.own t))
      if hashable t then
        some (.result (.own (.hashSet t)),
          readM fun W s => (Buf.decHashSet (asDec d W s) s.input).map fun xs => .val (.list xs))
      else none
    | _ => none
  -- decode.rs:249-256
  | .decOption, [r, d] => do
    r.reader c
    match exp with
    | some (.result (.own (.option t))) =>
      let d ← d.fn c [.reader] (.result (.own t))
      some (.result (.own (.option t)), readM fun W s => (Buf.decOption (asDec d W s) s.input).map fun x =>
        match x with
        | some v => .val (.some v)
        | none => .val .none)
    | _ => none
  -- decode.rs:265-287
  | .decArray, [r, d] => do
    r.reader c
    match exp with
    | some (.result (.own (.array t n))) =>
      let d ← d.fn c [.reader] (.result (.own t))
      some (.result (.own (.array t n)),
        readM fun W s => (Buf.decArray n (asDec d W s) s.input).map fun xs => .val (.list xs))
    | _ => none
  -- decode.rs:295-321
  | .decNzVal p, [r] => do
    r.reader c
    if isInt p then some (.result (.own (.nonZero (.prim p))), decM (decNzRep p.rep)) else none
  -- decode.rs:330-364
  | .decNzRef k, [r] => do
    r.reader c
    if k.returns c.opts then some (.result (.own (.nonZero (.prim k.prim))), decM (decNzRep k.prim.rep)) else none
  -- decode.rs:373-390
  | .decNzVec, [r, d] => do
    r.reader c
    match exp with
    | some (.result (.own (.nonZero (.vec t)))) =>
      let d ← d.fn c [.reader] (.result (.own t))
      some (.result (.own (.nonZero (.vec t))),
        readM fun W s => (Buf.decNonZeroVec (asDec d W s) s.input).map fun xs => .val (.list xs))
    | _ => none
  -- decode.rs:399-422
  | .decNzHashMap, [r, dk, dv] => do
    r.reader c
    match exp with
    | some (.result (.own (.nonZero (.hashMap k v)))) =>
      let dk ← dk.fn c [.reader] (.result (.own k))
      let dv ← dv.fn c [.reader] (.result (.own v))
      if hashable k then
        some (.result (.own (.nonZero (.hashMap k v))), readM fun W s =>
          (Buf.decNonZeroHashMap (asDec dk W s) (asDec dv W s) s.input).map fun es => .val (.list (es.map toPair)))
      else none
    | _ => none
  -- decode.rs:431-449
  | .decNzHashSet, [r, d] => do
    r.reader c
    match exp with
    | some (.result (.own (.nonZero (.hashSet t)))) =>
      let d ← d.fn c [.reader] (.result (.own t))
      if hashable t then
        some (.result (.own (.nonZero (.hashSet t))),
          readM fun W s => (Buf.decNonZeroHashSet (asDec d W s) s.input).map fun xs => .val (.list xs))
      else none
    | _ => none
  -- decode.rs:458-460
  | .decId, [r] => do
    r.reader c
    some (.result .fieldId, readM fun _ s => (Buf.decId s.input).map .fieldId)
  -- decode.rs:469-471
  | .decVariantId, [r] => do
    r.reader c
    some (.result .variantId, readM fun _ s => (Buf.decVariantId s.input).map .variantId)
  -- decode.rs:480-510
  | .decSkip, [r, e] => do
    r.reader c
    let e ← e.plain.check c .encoding
    some (.result .unit, e.bind fun e =>
      match e with
      | .encoding e => readM fun _ s => (Buf.decSkip e s.input).map fun _ => .unit
      | _ => fun _ _ => .panic)
  -- lib.rs:34-36
  | .fieldId, [id, e] => do
    let id ← id.plain.check c .u32
    let e ← e.plain.check c .encoding
    some (.fieldId, id.bind (onVal fun id => e.bind fun e =>
      match id, e with
      | .num id, .encoding e => pureM (.fieldId ⟨BitVec.ofNat 32 id, e⟩)
      | _, _ => fun _ _ => .panic))
  -- lib.rs:105-107
  | .variantId, [id] => do
    let id ← id.plain.check c .u32
    some (.variantId, id.bind (onVal fun id =>
      match id with
      | .num id => pureM (.variantId (BitVec.ofNat 32 id))
      | _ => fun _ _ => .panic))
  | _, _ => none

/-! ### Expressions -/

/-- The constants of the runtime crate: size.rs:8, decode.rs:46, lib.rs:63-74. -/
def constSem : Cst → RType × RVal
  | .endMarker => (.u32, .val (.num Buf.endMarker))
  | .endMarkerSize => (.usize, .usize Buf.endMarkerSize)
  | .encoding e => (.encoding, .encoding e)

/-- A variable. -/
def varSem (x : String) : Elab := fun c _ => do
  let (t, _) ← c.find x
  some (t, fun _ s =>
    match s.vars.lookup x with
    | some v => .ok v s
    | none => .panic)

/-- A literal is a `u32` where one is expected, and a `usize` otherwise. -/
def litSem (n : Nat) : Elab := fun _ exp =>
  match exp with
  | some (.own (.prim .u32)) => if n < 2 ^ 32 then some (.u32, pureM (.val (.num n))) else none
  | _ => some (.usize, pureM (.usize n))

/-- `&e` -/
def refSem (e : Elab) : Elab := fun c _ => do
  let (t, m) ← e c none
  some (.ref t, m)

/-- `*e`, for values that can be copied. -/
def derefSem (e : Elab) : Elab := fun c _ => do
  let (t, m) ← e c none
  match t with
  | .ref (.own (.prim p)) => if byValue p then some (.own (.prim p), m) else none
  | _ => none

/-- The element at a position. -/
def itemM (i : Nat) (xs : List Val) : M :=
  match xs[i]? with
  | some v => pureM (.val v)
  | none => fun _ _ => .panic

/-- `e.0` -/
def indexSem (e : Elab) (i : Nat) : Elab := fun c _ => do
  let (t, m) ← e c none
  match t.strip with
  | .own (.tuple ts) => do
    let t ← ts[i]?
    some (.own t, m.bind (onList (itemM i)))
  | _ => none

/-- `e.value` and `e.encoding` -/
def memberSem (e : Elab) (f : Memb) : Elab := fun c _ => do
  let (t, m) ← e c none
  match t, f with
  | .fieldId, .value => some (.u32, m.bind fun v =>
    match v with
    | .fieldId i => pureM (.val (.num i.value.toNat))
    | _ => fun _ _ => .panic)
  | .fieldId, .encoding => some (.encoding, m.bind fun v =>
    match v with
    | .fieldId i => pureM (.encoding i.encoding)
    | _ => fun _ _ => .panic)
  | .variantId, .value => some (.u32, m.bind fun v =>
    match v with
    | .variantId i => pureM (.val (.num i.toNat))
    | _ => fun _ _ => .panic)
  | _, _ => none

/-- `Size::size` -/
def traitSizeM (t : Ty) (v : Val) : M := fun W s =>
  match W.size t v with
  | some n => .ok (.usize n) s
  | none => .hang

/-- `Encode::encode` -/
def traitEncM (t : Ty) (v : Val) : M := fun W s =>
  match W.enc t v with
  | some b => .ok .unit (s.write b)
  | none => .hang

/-- `e.f(..)`: the receiver is dereferenced as needed. `get` of Rust's own non-zero integers returns the number, that of the
runtime crate (lib.rs:164-166) a reference. -/
def methodSem (e : Elab) (f : Meth) (args : List Arg) : Elab := fun c _ => do
  let (t, m) ← e c none
  match f, t.strip, args with
  | .asRef, .own (.option t), [] => some (.optRef t, m)
  | .get, .own (.nonZero (.prim p)), [] =>
    if (rustNonZero p).isSome then some (.own (.prim p), m) else some (.ref (.own (.prim p)), m)
  | .get, .own (.nonZero t), [] => some (.ref (.own t), m)
  | .size, .own t, [] =>
    if hasEnc c.opts c.scope.arity t then
      some (.usize, m.bind (onVal (traitSizeM t)))
    else none
  | .encode, .own t, [w] => do
    w.writer c
    if hasEnc c.opts c.scope.arity t then
      some (.unit, m.bind (onVal (traitEncM t)))
    else none
  | .okOr, .own (.option u), [x] => do
    let x ← x.plain.check c .error
    match t with
    | .own _ => some (.result (.own u), m.bind (onVal fun v => x.bind fun e =>
      match v, e with
      | .some v, _ => pureM (.ok (.val v))
      | .none, .error e => pureM (.fail e)
      | _, _ => fun _ _ => .panic))
    | _ => none
  | _, _, _ => none

/-- The type of the content that is expected. -/
def expSome : Option RType → Option RType
  | some (.own (.option t)) => some (.own t)
  | _ => none

/-- The type of the content that is expected. -/
def expOk : Option RType → Option RType
  | some (.result t) => some t
  | _ => none

/-- `Ok(e)` -/
def okSem (e : Elab) : Elab := fun c exp => do
  if c.scope.values "Ok" then none
  else
    let (t, m) ← e c (expOk exp)
    some (.result t, m.bind fun v => pureM (.ok v))

/-- `Some(e)`, `Ok(e)`, `Err(e)` -/
def wrapSem (f : Wrap) (e : Elab) : Elab := fun c exp =>
  match f with
  | .some => do
    if c.scope.values "Some" then none
    else
      let (t, m) ← e c (expSome exp)
      match t with
      | .own t => some (.own (.option t), m.bind (onVal fun v => pureM (.val (.some v))))
      | _ => none
  | .ok => okSem e c exp
  | .err => do
    if c.scope.values "Err" then none
    else
      let m ← e.check c .error
      match exp with
      | some (.result t) => some (.result t, m.bind fun v =>
        match v with
        | .error e => pureM (.fail e)
        | _ => fun _ _ => .panic)
      | _ => none

/-- `None` -/
def noneSem : Elab := fun c exp =>
  if c.scope.values "None" then none
  else
    match exp with
    | some (.own (.option t)) => some (.own (.option t), pureM (.val .none))
    | _ => none

/-- The schema type behind a written type, if the text means that type. -/
def typed (c : Ctx) (ty : Typed) : Option Ty :=
  let t := Build.lowerTy c.scope.look c.scope.generics ty.of
  if readTy c.scope ty.text = some (rustOf c.opts t) then some t else none

/-- `T::decode(e)` -/
def decodeSem (ty : Typed) (e : Arg) : Elab := fun c _ => do
  let t ← typed c ty
  e.reader c
  if hasDec c.opts c.scope.arity t then some (.result (.own t), readM fun W s => (W.dec t s.input).map .val) else none

/-- `e?` -/
def trySem (e : Elab) : Elab := fun c exp => do
  let (t, m) ← e c (exp.map .result)
  match t, c.ret with
  | .result t, .result _ => some (t, m.bind fun v _ s =>
    match v with
    | .ok v => .ok v s
    | .fail e => .ret e
    | _ => .panic)
  | _, _ => none

/-- Elements of a tuple with the given types, one after the other. -/
def itemsSem (c : Ctx) : List Arg → List Ty → Option (List M)
  | [], [] => some []
  | e :: es, t :: ts => do
    let m ← e.plain.check c (.own t)
    let ms ← itemsSem c es ts
    some (m :: ms)
  | _, _ => none

/-- All values, one after the other. -/
def valuesM : List M → (List Val → M) → M
  | [], k => k []
  | m :: ms, k => m.bind (onVal fun v => valuesM ms fun vs => k (v :: vs))

/-- `(a, b)` -/
def tupleSem (es : List Arg) : Elab := fun c exp =>
  match exp with
  | some (.own (.tuple ts)) => do
    let ms ← itemsSem c es ts
    some (.own (.tuple ts), valuesM ms fun vs => pureM (.val (.list vs)))
  | _ => none

/-- The operands of `+`: numbers and references to them, but no references to references. -/
def operand (e : Elab) (c : Ctx) : Option M :=
  match e c none with
  | some (.usize, m) => some m
  | some (.ref .usize, m) => some m
  | _ => none

/-- All operands. -/
def operands (c : Ctx) : List Arg → Option (List M)
  | [] => some []
  | e :: es => do
    let m ← operand e.plain c
    let ms ← operands c es
    some (m :: ms)

/-- Added from the left. -/
def sumsM : M → List M → M
  | a, [] => a
  | a, m :: ms => sumsM (addM a m) ms

/-- `a + b + ..`, with at least two operands. -/
def sumSem (es : List Arg) : Elab := fun c _ => do
  match ← operands c es with
  | m :: m' :: ms => some (.usize, sumsM (addM m m') ms)
  | _ => none

/-- Overwrites the newest variable of the name. -/
def setVar (x : String) (v : RVal) : List (String × RVal) → List (String × RVal)
  | [] => []
  | (y, u) :: vs => if y = x then (y, v) :: vs else (y, u) :: setVar x v vs

/-- `x = e` -/
def assignSem (x : String) (e : Elab) : Elab := fun c _ => do
  let (t, mutable) ← c.find x
  if mutable then
    let m ← e.check c t
    some (.unit, m.bind fun v _ s => .ok .unit { s with vars := setVar x v s.vars })
  else none

/-- `break` -/
def breakSem : Elab := fun c _ => if c.inLoop then some (.never, fun _ s => .brk s) else none

/-- Only the variables from outside remain. -/
def leave (n : Nat) (s : St) : St := { s with vars := s.vars.drop (s.vars.length - n) }

/-- A block. -/
def inBlock (m : M) : M := fun W s =>
  match m W s with
  | .ok v s' => .ok v (leave s.vars.length s')
  | .brk s' => .brk (leave s.vars.length s')
  | o => o

/-- A block. -/
def blockSem (body : Elab) : Elab := fun c exp => do
  let (t, m) ← body c exp
  some (t, inBlock m)

/-- At most `n` rounds of a loop; `none` if it has not ended by then. -/
def rounds (m : M) (W : World) : Nat → St → Option Out
  | 0, _ => none
  | n + 1, s =>
    match m W s with
    | .ok _ s' => rounds m W n s'
    | .brk s' => some (.ok .unit s')
    | o => some o

open Classical in
/-- `loop { .. }` -/
noncomputable def loopM (m : M) : M := fun W s =>
  if h : ∃ o n, rounds m W n s = some o then h.choose else .hang

/-- `loop { .. }` -/
noncomputable def loopSem (body : Elab) : Elab := fun c _ => do
  let (t, m) ← body { c with inLoop := true } (some .unit)
  if t.same c.opts .unit || t.same c.opts .never then some (.unit, loopM (inBlock m)) else none

/-- The type of a `match`: that of all arms that end. -/
def joinTy (o : BytesType) (a b : RType) : Option RType :=
  match a with
  | .never => some b
  | a =>
    match b with
    | .never => some a
    | b => if a.same o b then some a else none

/-- Arms for a `u32`. The last one must match everything. -/
def numArms (c : Ctx) (exp : Option RType) : List (Pat × Elab) → Option (RType × (Nat → M))
  | [] => none
  | (.wild, e) :: _ => do
    let (t, m) ← e c exp
    some (t, fun _ => m)
  | (.bind x, e) :: _ => do
    let (t, m) ← e (c.push x .u32 false) exp
    some (t, fun n => inBlock fun W s => m W { s with vars := (x, .val (.num n)) :: s.vars })
  | (.lit k, e) :: rest => do
    let (t, m) ← e c exp
    let (t', ms) ← numArms c exp rest
    let u ← joinTy c.opts t t'
    if k < 2 ^ 32 then some (u, fun n => if n = k then m else ms n) else none
  | (.const .endMarker, e) :: rest => do
    let (t, m) ← e c exp
    let (t', ms) ← numArms c exp rest
    let u ← joinTy c.opts t t'
    some (u, fun n => if n = Buf.endMarker then m else ms n)
  | _ :: _ => none

/-- Variables for the fields. -/
def fieldVars (names : List String) (tys : List Ty) : List (String × RType × Bool) :=
  typeAll names (tys.map fun t => .ref (.own t))

/-- Rust's keywords, which are no names: https://doc.rust-lang.org/reference/keywords.html, edition 2021. -/
def keywords : List String :=
  ["as", "break", "const", "continue", "crate", "else", "enum", "extern", "false", "fn", "for", "if", "impl", "in", "let",
    "loop", "match", "mod", "move", "mut", "pub", "ref", "return", "self", "Self", "static", "struct", "super", "trait",
    "true", "type", "unsafe", "use", "where", "while", "async", "await", "dyn", "abstract", "become", "box", "do", "final",
    "macro", "override", "priv", "typeof", "unsized", "virtual", "yield", "try"]

/-- The names in a pattern or struct expression for fields. -/
def namesOk (kind : FieldKind) (fs : Schema.Fields) (names : List String) : Bool :=
  kind = fs.kind && names.Nodup && names.all (fun n => !keywords.contains n) &&
    (match kind with
     | .named => names = fs.fields.map (·.name)
     | .unnamed => names.length = fs.fields.length
     | .unit => names.isEmpty && fs.fields.isEmpty)

/-- Binds the fields of a value. -/
def withFields (names : List String) (vs : List Val) (m : M) : M :=
  inBlock fun W s => m W { s with vars := bindAll names (vs.map .val) ++ s.vars }

/-- The variant of a name, with its position. -/
def findVariant (name : String) : List Schema.Variant → Option (Nat × Schema.Fields)
  | [] => none
  | v :: vs => if v.name = name then some (0, v.fields) else (findVariant name vs).map fun x => (x.1 + 1, x.2)

/-- Arms for an enum. -/
def enumArms (c : Ctx) (vars : List Schema.Variant) (exp : Option RType) :
    List (Pat × Elab) → Option (RType × List Nat × (Nat → List Val → M))
  | [] => some (.never, [], fun _ _ _ _ => .panic)
  | (.variant name kind names, e) :: rest => do
    let (i, fs) ← findVariant name vars
    if namesOk kind fs names && !keywords.contains name then
      let (t, m) ← e { c with vars := fieldVars names (fs.fields.map (·.ty)) ++ c.vars } exp
      let (t', is, ms) ← enumArms c vars exp rest
      let u ← joinTy c.opts t t'
      some (u, i :: is, fun j vs => if j = i then withFields names vs m else ms j vs)
    else none
  | _ :: _ => none

/-- `match e { .. }`. A reference to an enum without variants cannot be matched without arms. -/
def matchSem (e : Elab) (arms : List (Pat × Elab)) : Elab := fun c exp => do
  let (t, m) ← e c none
  match t with
  | .own (.prim .u32) => do
    let (u, k) ← numArms c exp arms
    some (u, m.bind (onVal fun v =>
      match v with
      | .num n => k n
      | _ => fun _ _ => .panic))
  | .ref (.own (.ext n as)) =>
    match c.self with
    | .enum vars => do
      let (u, is, k) ← enumArms c vars exp arms
      if rustOf c.opts (.ext n as) = rustOf c.opts c.selfTy ∧ !arms.isEmpty ∧ (List.range vars.length).all (is.contains ·) then
        some (u, m.bind (onVal fun v =>
          match v with
          | .enum i vs => k i vs
          | _ => fun _ _ => .panic))
      else none
    | _ => none
  | _ => none

/-- `Self{ .. }` and so on. -/
def buildSem (variant : Option String) (kind : FieldKind) (names : List String) (es : List Arg) : Elab := fun c _ =>
  match variant, c.self with
  | none, .struct fs =>
    if namesOk kind fs names then do
      let ms ← itemsSem c es (fs.fields.map (·.ty))
      some (.own c.selfTy, valuesM ms fun vs => pureM (.val (.struct vs)))
    else none
  | some v, .enum vars => do
    let (i, fs) ← findVariant v vars
    if namesOk kind fs names && !keywords.contains v then
      let ms ← itemsSem c es (fs.fields.map (·.ty))
      some (.own c.selfTy, valuesM ms fun vs => pureM (.val (.enum i vs)))
    else none
  | _, _ => none

/-- `::mabo::buf::Error::MissingField { .. }` -/
def missingSem (id : Nat) (name : Option String) : Elab := fun c _ =>
  if c.scope.values (if name.isSome then "Some" else "None") then none
  else if id < 2 ^ 32 then some (.error, pureM (.error (.missingField id name))) else none

/-- `::mabo::buf::Error::UnknownVariant(e)` -/
def unknownSem (e : Elab) : Elab := fun c _ => do
  let m ← e.check c .u32
  some (.error, m.bind (onVal fun v =>
    match v with
    | .num n => pureM (.error (.unknownVariant n))
    | _ => fun _ _ => .panic))

/-! ### Statements -/

/-- A statement after its expressions have been read. -/
inductive StmtSem where
  | semi (e : Elab)
  | tail (e : Elab)
  | empty
  | slot (x : String) (ty : Typed) (e : Elab)
  | bind (x : String) (e : Elab)
  | unpack (kind : FieldKind) (names : List String)

/-- Statements one after the other. -/
def seqSem : List StmtSem → Elab
  | [], _, _ => some (.unit, pureM .unit)
  | .semi e :: rest, c, exp => do
    let (_, m) ← e c none
    let (t, ms) ← seqSem rest c exp
    some (t, m.bind fun _ => ms)
  | .tail e :: rest, c, exp =>
    match rest with
    | [] => e c exp
    | rest => do
      let m ← e.check c .unit
      let (t, ms) ← seqSem rest c exp
      some (t, m.bind fun _ => ms)
  | .empty :: rest, c, exp => seqSem rest c exp
  | .slot x ty e :: rest, c, exp => do
    let t ← typed c ty
    let m ← e.check c (.own t)
    let (u, ms) ← seqSem rest (c.push x (.own t) true) exp
    some (u, m.bind fun v W s => ms W { s with vars := (x, v) :: s.vars })
  | .bind x e :: rest, c, exp => do
    let (t, m) ← e c none
    let (u, ms) ← seqSem rest (c.push x t false) exp
    some (u, m.bind fun v W s => ms W { s with vars := (x, v) :: s.vars })
  | .unpack kind names :: rest, c, exp =>
    match c.self with
    | .struct fs =>
      if namesOk kind fs names then do
        let (t, m) ← varSem "self" c none
        match t with
        | .ref (.own t) =>
          if rustOf c.opts t = rustOf c.opts c.selfTy then
            let (u, ms) ← seqSem rest { c with vars := fieldVars names (fs.fields.map (·.ty)) ++ c.vars } exp
            some (u, m.bind (onVal fun v W s =>
              match v with
              | .struct vs => ms W { s with vars := bindAll names (vs.map .val) ++ s.vars }
              | _ => .panic))
          else none
        | _ => none
      else none
    | _ => none

mutual
/-- An expression. -/
noncomputable def den : Expr → Arg
  | .var x => .expr (varSem x)
  | .lit n => .expr (litSem n)
  | .const k => .expr fun _ _ => some ((constSem k).1, pureM (constSem k).2)
  | .ref e => .expr (refSem (den e).plain)
  | .deref e => .expr (derefSem (den e).plain)
  | .index e i => .expr (indexSem (den e).plain i)
  | .member e f => .expr (memberSem (den e).plain f)
  | .method e f args => .expr (methodSem (den e).plain f (denList args))
  | .call f args => .expr (callSem f (denList args))
  | .wrap f e => .expr (wrapSem f (den e).plain)
  | .none => .expr noneSem
  | .okTyped e => .expr (okSem (den e).plain)
  | .decode ty e => .expr (decodeSem ty (den e))
  | .closure ps body => ⟨fun _ _ => Option.none, some (ps, seqSem (denStmts body))⟩
  | .block body => .expr (blockSem (seqSem (denStmts body)))
  | .try e => .expr (trySem (den e).plain)
  | .tuple es => .expr (tupleSem (denList es))
  | .sum es => .expr (sumSem (denList es))
  | .assign x e => .expr (assignSem x (den e).plain)
  | .break => .expr breakSem
  | .loop body => .expr (loopSem (seqSem (denStmts body)))
  | .match e arms => .expr (matchSem (den e).plain (denArms arms))
  | .build v kind names es => .expr (buildSem v kind names (denList es))
  | .missing id name => .expr (missingSem id name)
  | .unknown e => .expr (unknownSem (den e).plain)
/-- All of them. -/
noncomputable def denList : List Expr → List Arg
  | [] => []
  | e :: es => den e :: denList es
/-- A statement. -/
noncomputable def denStmt : Stmt → StmtSem
  | .semi e => .semi (den e).plain
  | .tail e => .tail (den e).plain
  | .empty => .empty
  | .slot x ty e => .slot x ty (den e).plain
  | .bind x e => .bind x (den e).plain
  | .unpack kind names => .unpack kind names
/-- All of them. -/
noncomputable def denStmts : List Stmt → List StmtSem
  | [] => []
  | s :: ss => denStmt s :: denStmts ss
/-- All of them. -/
noncomputable def denArms : List Arm → List (Pat × Elab)
  | [] => []
  | .mk p e :: rest => (p, (den e).plain) :: denArms rest
end

end Mabo.Rust
