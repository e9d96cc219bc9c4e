import Verif.Rust.Elab
/-!
The generated crate as a program: each emitted `impl` is checked and executed by `Rust/Elab.lean`; method calls on type
parameters and on types of the crate go through the traits, whose implementations for the standard types are those of the
runtime crate (`crates/mabo/src/buf/{encode,size,decode}.rs`).
-/
namespace Mabo.Rust
open Mabo.Buf Mabo.Varint Mabo.Codegen
open Mabo.Schema (Prim Ty Val FieldKind Def)
open Mabo.Build (Files)

/-! ### Scopes -/

/-- Is there a tuple struct, unit struct or constant at the path? They are values as well as (or instead of) types. -/
def valueAt (files : Files) (abs : List String) : Bool :=
  match Build.scopeOf files abs.dropLast, abs.getLast? with
  | some ds, some n => ds.any fun d =>
    match d with
    | .struct s => s.name = n && s.fields.kind ≠ .named
    | .const c => c.name = n
    | _ => false
  | _, _ => false

/-- The names in the module at `m`, inside of a definition with the given type parameters. -/
def scopeAt (files : Files) (m : List String) (generics : List String) : Scope where
  generics := generics
  look := Build.resolvePath files m
  arity abs := (Build.itemAt files abs).map fun it => it.generics.length
  other n :=
    match Build.scopeOf files m with
    | some ds => (Build.childModule ds n).isSome || ds.any fun d =>
      match d with
      | .typeAlias a => a.name = n
      | _ => false
    | none => false
  values n :=
    valueAt files (m ++ [n]) ||
      (match Build.scopeOf files m with
       | some ds =>
         match Build.importOf ds n with
         | some p => valueAt files (m.dropLast ++ p)
         | none => false
       | none => false)

/-! ### Functions -/

/-- The type parameters as types. -/
def params (n : Nat) : List Ty := (List.range n).map .param

/-- Inside of the `impl` of a trait for the type at `abs`. -/
def itemCtx (files : Files) (o : BytesType) (abs : List String) (it : Build.Item) (ret : RType)
    (vars : List (String × RType × Bool)) : Ctx where
  opts := o
  scope := scopeAt files abs.dropLast it.generics
  selfTy := .ext abs (params it.generics.length)
  self := Build.lowerItem (Build.resolvePath files abs.dropLast) it
  ret := ret
  inLoop := false
  vars := vars

/-- The body of a function. -/
noncomputable def fnBody (c : Ctx) (body : List Stmt) : Option M := Elab.check (seqSem (denStmts body)) c c.ret

/-- The emitted `impl Size`. -/
def sizeImplOf (o : BytesType) : Build.Item → Option Impl
  | .struct s => sizeStruct o s
  | .enum e => sizeEnum o e

/-- The emitted `impl Encode`. -/
def encodeImplOf (o : BytesType) : Build.Item → Option Impl
  | .struct s => encodeStruct o s
  | .enum e => encodeEnum o e

/-- The emitted `impl Decode`. -/
def decodeImplOf (o : BytesType) : Build.Item → Option Impl
  | .struct s => decodeStruct o s
  | .enum e => decodeEnum o e

/-- `fn size(&self) -> usize` -/
def sizeCtx (files : Files) (o : BytesType) (abs : List String) (it : Build.Item) : Ctx :=
  itemCtx files o abs it .usize [("self", .ref (.own (.ext abs (params it.generics.length))), false)]

/-- `fn encode(&self, w: &mut impl ::mabo::BufMut)` -/
def encodeCtx (files : Files) (o : BytesType) (abs : List String) (it : Build.Item) : Ctx :=
  itemCtx files o abs it .unit
    [("w", .writer, false), ("self", .ref (.own (.ext abs (params it.generics.length))), false)]

/-- `fn decode(r: &mut impl ::mabo::Buf) -> ::mabo::buf::Result<Self>` -/
def decodeCtx (files : Files) (o : BytesType) (abs : List String) (it : Build.Item) : Ctx :=
  itemCtx files o abs it (.result (.own (.ext abs (params it.generics.length)))) [("r", .reader, false)]

/-- The emitted function `size`, if it compiles. -/
noncomputable def sizeFn (files : Files) (o : BytesType) (abs : List String) (it : Build.Item) : Option M := do
  let i ← sizeImplOf o it
  fnBody (sizeCtx files o abs it) i.body

/-- The emitted function `encode`, if it compiles. -/
noncomputable def encodeFn (files : Files) (o : BytesType) (abs : List String) (it : Build.Item) : Option M := do
  let i ← encodeImplOf o it
  fnBody (encodeCtx files o abs it) i.body

/-- The emitted function `decode`, if it compiles. -/
noncomputable def decodeFn (files : Files) (o : BytesType) (abs : List String) (it : Build.Item) : Option M := do
  let i ← decodeImplOf o it
  fnBody (decodeCtx files o abs it) i.body

/-- A call of `size`. -/
def runSize (f : Option M) (W : World) (v : Val) : Option Nat :=
  match f with
  | some m =>
    match m W ⟨[], [], [("self", .val v)]⟩ with
    | .ok (.usize n) _ => some n
    | _ => none
  | none => none

/-- A call of `encode`: the bytes written. -/
def runEnc (f : Option M) (W : World) (v : Val) : Option Bytes :=
  match f with
  | some m =>
    match m W ⟨[], [], [("w", .unit), ("self", .val v)]⟩ with
    | .ok _ s => some s.output
    | _ => none
  | none => none

/-- A call of `decode`. -/
def runDec (f : Option M) (W : World) : Dec Val := fun r =>
  match f with
  | some m =>
    match m W ⟨r, [], [("r", .unit)]⟩ with
    | .ok (.ok (.val v)) s => .ok v s.input
    | .ok (.fail e) _ => .err e
    | .ret e => .err e
    | .hang => .hang
    | _ => .panic
  | none => .panic

/-! ### Traits -/

/-- Sum of sizes. -/
def sumO (f : Val → Option Nat) : List Val → Option Nat
  | [] => some 0
  | v :: vs => do
    let a ← f v
    let b ← sumO f vs
    some (a + b)

/-- One after the other. -/
def catO (f : Val → Option Bytes) : List Val → Option Bytes
  | [] => some []
  | v :: vs => do
    let a ← f v
    let b ← catO f vs
    some (a ++ b)

/-- On the parts of an entry. -/
def entryO {α : Type} (k : Val → Val → Option α) : Val → Option α
  | .pair a b => k a b
  | _ => none

/-- `Size::size`, size.rs:154-265. `bytes` is `Vec<u8>` here. -/
def traitSize (ext : List String → List Ty → Val → Option Nat) : Ty → Val → Option Nat
  | .prim p, v =>
    match p, v with
    | .bytes, .bytes b | .bytesRef, .bytes b => some (Buf.sizeVec b fun _ => 1)
    | p, v => some (sizeRep p.rep v)
  | .vec t, .list xs => do some (sizeLen xs.length + (← sumO (traitSize ext t) xs))
  | .hashMap k w, .list xs => do
    some (sizeLen xs.length + (← sumO (entryO fun a b => do some ((← traitSize ext k a) + (← traitSize ext w b))) xs))
  | .hashSet t, .list xs => do some (sizeLen xs.length + (← sumO (traitSize ext t) xs))
  | .option _, .none => some 1
  | .option t, .some v => do some (1 + (← traitSize ext t v))
  | .nonZero t, v => traitSize ext t v
  | .array t n, .list xs => do some (sizeLen n + (← sumO (traitSize ext t) xs))
  | .ext abs args, v => ext abs args v
  | .inst t, v => traitSize ext t v
  | _, _ => none

/-- `Encode::encode`, encode.rs:202-322, with the sizes of the elements. -/
def traitEnc (size : Ty → Val → Option Nat) (ext : List String → List Ty → Val → Option Bytes) : Ty → Val → Option Bytes
  | .prim p, v =>
    match p, v with
    | .bytes, .bytes b | .bytesRef, .bytes b => some (Buf.encVec b (fun _ => 1) fun x => encU8 x.toBitVec)
    | p, v => some (encRep p.rep v)
  | .vec t, .list xs => do some (encLen (← sumO (size t) xs) ++ (← catO (traitEnc size ext t) xs))
  | .hashMap k w, .list xs => do
    some (encLen (← sumO (entryO fun a b => do some ((← size k a) + (← size w b))) xs) ++
      (← catO (entryO fun a b => do some ((← traitEnc size ext k a) ++ (← traitEnc size ext w b))) xs))
  | .hashSet t, .list xs => do some (encLen (← sumO (size t) xs) ++ (← catO (traitEnc size ext t) xs))
  | .option _, .none => some [0]
  | .option t, .some v => do some (1 :: (← traitEnc size ext t v))
  | .nonZero t, v => traitEnc size ext t v
  | .array t _, .list xs => do some (encLen (← sumO (size t) xs) ++ (← catO (traitEnc size ext t) xs))
  | .ext abs args, v => ext abs args v
  | .inst t, v => traitEnc size ext t v
  | _, _ => none

/-- `Decode::decode`, decode.rs:524-615. -/
def traitDec (ext : List String → List Ty → Dec Val) : Ty → Dec Val
  | .prim p =>
    match p with
    | .bytes | .bytesRef => fun r => (Buf.decVec decU8 r).map fun bs => .bytes (bs.map UInt8.ofBitVec)
    | p => decRep p.rep
  | .vec t => fun r => (Buf.decVec (traitDec ext t) r).map .list
  | .hashMap k v => fun r => (Buf.decHashMap (traitDec ext k) (traitDec ext v) r).map fun es => .list (es.map toPair)
  | .hashSet t => fun r => (Buf.decHashSet (traitDec ext t) r).map .list
  | .option t => fun r => (Buf.decOption (traitDec ext t) r).map fun x =>
    match x with
    | some v => .some v
    | none => .none
  | .array t n => fun r => (Buf.decArray n (traitDec ext t) r).map .list
  | .ext abs args => ext abs args
  | .inst t => traitDec ext t
  | _ => fun _ => .panic

/-- The traits for all types, from those for the types of the crate. -/
def close (size : List String → List Ty → Val → Option Nat) (enc : List String → List Ty → Val → Option Bytes)
    (dec : List String → List Ty → Dec Val) : World where
  size := traitSize size
  enc := traitEnc (traitSize size) enc
  dec := traitDec dec

/-- The traits inside of a definition that is used with the type arguments. -/
def World.inst (W : World) (args : List Ty) : World where
  size t := W.size (t.subst args)
  enc t := W.enc (t.subst args)
  dec t := W.dec (t.subst args)

/-- The program, where calls of methods of the crate's types can be nested `n` times; calls that are nested deeper do not
end. -/
noncomputable def world (files : Files) (o : BytesType) : Nat → World
  | 0 => close (fun _ _ _ => none) (fun _ _ _ => none) fun _ _ _ => .hang
  | n + 1 => close
    (fun abs args v => (Build.itemAt files abs).bind fun it =>
      runSize (sizeFn files o abs it) ((world files o n).inst args) v)
    (fun abs args v => (Build.itemAt files abs).bind fun it =>
      runEnc (encodeFn files o abs it) ((world files o n).inst args) v)
    (fun abs args =>
      match Build.itemAt files abs with
      | some it => runDec (decodeFn files o abs it) ((world files o n).inst args)
      | none => fun _ => .panic)

end Mabo.Rust
