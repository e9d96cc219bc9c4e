import Verif.Compiler.Simplify
/-!
The part of Rust's syntax that the code generator of mabo-build (`crates/mabo-build/src/{definition,encode,decode,size}.rs`)
writes, and the tokens of it.

The generator pastes tokens together; the trees here are what Rust's parser makes of them (`&x.0.get()` is the reference of a
call, `a + b + c` is one sum). `tokens` prints a tree again; `tools/conformance/rust.py` compares that with the snapshots of
the project's own tests.
-/
namespace Mabo.Rust
open Mabo.Schema (FieldKind Prim)

/-- A type as it is written. -/
inductive TyE where
  /-- `a::b<..>`, with a leading `::` if `global`. -/
  | path (global : Bool) (segs : List String) (args : List TyE)
  | tuple (ts : List TyE)
  | array (t : TyE) (n : Nat)
  | slice (t : TyE)
  | ref (t : TyE)

/-- A written type, and the schema type it was written for. Different schema types can have the same text (`bytes` and
`vec<u8>`); values of them have different representations in `Schema.Val`, and `of` says which one is meant. It has no other
influence: whether two types are the same is decided by their text. -/
structure Typed where
  text : TyE
  of : Simplify.Ty

/-- The leaf types that the runtime crate takes by reference: `str`, `[u8]`, `bytes::Bytes`. -/
inductive RefLeaf where
  | string
  | bytesStd
  | bytesBytes
deriving DecidableEq, Repr

/-- The functions of the runtime crate `mabo` that generated code calls. `segs` is how they are written. -/
inductive Fn where
  | encVal (p : Prim) | encRef (k : RefLeaf) | encVec | encHashMap | encHashSet | encOption | encArray | encTuple
  | encField | encFieldOption | encVariantId
  | sizeVal (p : Prim) | sizeRef (k : RefLeaf) | sizeVec | sizeHashMap | sizeHashSet | sizeOption | sizeArray
  | sizeField | sizeFieldOption | sizeVariantId
  | decVal (p : Prim) | decRef (k : RefLeaf) | decVec | decHashMap | decHashSet | decOption | decArray
  | decNzVal (p : Prim) | decNzRef (k : RefLeaf) | decNzVec | decNzHashMap | decNzHashSet
  | decId | decVariantId | decSkip
  | fieldId | variantId
deriving DecidableEq, Repr

/-- The constants of the runtime crate. -/
inductive Cst where
  | endMarker
  | endMarkerSize
  | encoding (e : Buf.FieldEncoding)
deriving DecidableEq, Repr

/-- Methods. -/
inductive Meth where
  | asRef
  | get
  | size
  | encode
  | okOr
deriving DecidableEq, Repr

/-- Constructors of the prelude with one argument. -/
inductive Wrap where
  | some
  | ok
  | err
deriving DecidableEq, Repr

/-- Fields of `FieldId` and `VariantId`. -/
inductive Memb where
  | value
  | encoding
deriving DecidableEq, Repr

/-- Patterns of `match`. -/
inductive Pat where
  | lit (n : Nat)
  | const (c : Cst)
  | wild
  | bind (x : String)
  /-- `Self::V{ a, b, }`, `Self::V(a, b,)` or `Self::V`. -/
  | variant (name : String) (kind : FieldKind) (names : List String)

mutual
/-- Expressions. -/
inductive Expr where
  | var (x : String)
  | lit (n : Nat)
  | const (c : Cst)
  | ref (e : Expr)
  | deref (e : Expr)
  /-- `e.0` -/
  | index (e : Expr) (i : Nat)
  /-- `e.name` -/
  | member (e : Expr) (name : Memb)
  /-- `e.name(..)` -/
  | method (e : Expr) (name : Meth) (args : List Expr)
  /-- `::a::b(..)` -/
  | call (f : Fn) (args : List Expr)
  /-- `Some(e)`, `Ok(e)`, `Err(e)` -/
  | wrap (name : Wrap) (e : Expr)
  /-- `None` -/
  | none
  /-- `Ok::<_, ::mabo::buf::Error>(e)` -/
  | okTyped (e : Expr)
  /-- `a::T::<..>::decode(e)` -/
  | decode (ty : Typed) (e : Expr)
  | closure (params : List String) (body : List Stmt)
  | block (body : List Stmt)
  /-- `e?` -/
  | try (e : Expr)
  | tuple (es : List Expr)
  /-- `a + b + ..` -/
  | sum (es : List Expr)
  | assign (x : String) (e : Expr)
  | break
  | loop (body : List Stmt)
  | match (e : Expr) (arms : List Arm)
  /-- `Self{ a: .., }`, `Self(..)`, `Self` or the same with `Self::V`. -/
  | build (variant : Option String) (kind : FieldKind) (names : List String) (es : List Expr)
  /-- `::mabo::buf::Error::MissingField { id: .., name: .. }` -/
  | missing (id : Nat) (name : Option String)
  /-- `::mabo::buf::Error::UnknownVariant(e)` -/
  | unknown (e : Expr)
/-- Statements. -/
inductive Stmt where
  /-- `e;` -/
  | semi (e : Expr)
  /-- `e` at the end of a block, or before another statement where it needs no `;` -/
  | tail (e : Expr)
  /-- `;` -/
  | empty
  /-- `let mut x: T = e;` -/
  | slot (x : String) (ty : Typed) (e : Expr)
  /-- `let x = e;` -/
  | bind (x : String) (e : Expr)
  /-- `let Self{ a, b, } = self;` and so on -/
  | unpack (kind : FieldKind) (names : List String)
/-- `p => e` -/
inductive Arm where
  | mk (p : Pat) (e : Expr)
end

/-- A field of a struct or variant. -/
structure FieldDef where
  comment : List String
  name : String
  ty : Typed

/-- A variant of an enum. -/
structure VariantDef where
  comment : List String
  name : String
  kind : FieldKind
  fields : List FieldDef

/-- `impl<..> Trait for Name<..> where .. { fn .. }`. -/
structure Impl where
  /-- The path of the trait. -/
  trait : List String
  name : String
  generics : List String
  /-- The paths of the traits that each type parameter must have. -/
  bounds : List (List String)
  lints : List String
  signature : List String
  body : List Stmt

/-- Items of a file. -/
inductive Item where
  /-- `use ::mabo::buf::{Decode, Encode, Size};` -/
  | traits
  | module (comment : List String) (name : String) (items : List Item)
  | struct (comment : List String) (name : String) (generics : List String) (kind : FieldKind) (fields : List FieldDef)
  | enum (comment : List String) (name : String) (generics : List String) (variants : List VariantDef)
  | alias (comment : List String) (name : String) (generics : List String) (target : TyE)
  | const (comment : List String) (name : String) (ty : TyE) (value : Ast.Literal)
  /-- `use super::a::b;` -/
  | import (segs : List String)
  | impl (i : Impl)

/-! ### Tokens -/

/-- `a, b,` -/
def comma (ts : List (List String)) : List String := (ts.map (· ++ [","])).flatten

/-- `::a::b` -/
def globalPath : List String → List String
  | [] => []
  | s :: ss => ["::", s] ++ globalPath ss

/-- `a::b` -/
def localPath : List String → List String
  | [] => []
  | [s] => [s]
  | s :: ss => s :: "::" :: localPath ss

/-- Leaf types in names of functions. -/
def primName : Prim → String
  | .bool => "bool"
  | .u8 => "u8"
  | .u16 => "u16"
  | .u32 => "u32"
  | .u64 => "u64"
  | .u128 => "u128"
  | .i8 => "i8"
  | .i16 => "i16"
  | .i32 => "i32"
  | .i64 => "i64"
  | .i128 => "i128"
  | .f32 => "f32"
  | .f64 => "f64"
  | .string | .stringRef | .boxString => "string"
  | .bytes | .bytesRef | .boxBytes => "bytes"

/-- In names of functions. -/
def RefLeaf.name : RefLeaf → String
  | .string => "string"
  | .bytesStd => "bytes_std"
  | .bytesBytes => "bytes_bytes"

/-- The path of a function. -/
def Fn.segs : Fn → List String
  | .encVal p => buf ("encode_" ++ primName p)
  | .encRef k => buf ("encode_" ++ k.name)
  | .encVec => buf "encode_vec"
  | .encHashMap => buf "encode_hash_map"
  | .encHashSet => buf "encode_hash_set"
  | .encOption => buf "encode_option"
  | .encArray => buf "encode_array"
  | .encTuple => buf "encode_tuple"
  | .encField => buf "encode_field"
  | .encFieldOption => buf "encode_field_option"
  | .encVariantId => buf "encode_variant_id"
  | .sizeVal p => buf ("size_" ++ primName p)
  | .sizeRef k => buf ("size_" ++ k.name)
  | .sizeVec => buf "size_vec"
  | .sizeHashMap => buf "size_hash_map"
  | .sizeHashSet => buf "size_hash_set"
  | .sizeOption => buf "size_option"
  | .sizeArray => buf "size_array"
  | .sizeField => buf "size_field"
  | .sizeFieldOption => buf "size_field_option"
  | .sizeVariantId => buf "size_variant_id"
  | .decVal p => buf ("decode_" ++ primName p)
  | .decRef k => buf ("decode_" ++ k.name)
  | .decVec => buf "decode_vec"
  | .decHashMap => buf "decode_hash_map"
  | .decHashSet => buf "decode_hash_set"
  | .decOption => buf "decode_option"
  | .decArray => buf "decode_array"
  | .decNzVal p => buf ("decode_non_zero_" ++ primName p)
  | .decNzRef k => buf ("decode_non_zero_" ++ k.name)
  | .decNzVec => buf "decode_non_zero_vec"
  | .decNzHashMap => buf "decode_non_zero_hash_map"
  | .decNzHashSet => buf "decode_non_zero_hash_set"
  | .decId => buf "decode_id"
  | .decVariantId => buf "decode_variant_id"
  | .decSkip => buf "decode_skip"
  | .fieldId => ["mabo", "FieldId", "new"]
  | .variantId => ["mabo", "VariantId", "new"]
where
  buf (f : String) : List String := ["mabo", "buf", f]

/-- The path of a constant. -/
def Cst.segs : Cst → List String
  | .endMarker => ["mabo", "buf", "END_MARKER"]
  | .endMarkerSize => ["mabo", "buf", "END_MARKER_SIZE"]
  | .encoding e => ["mabo", "FieldEncoding", match e with
    | .varint => "Varint"
    | .lengthPrefixed => "LengthPrefixed"
    | .fixed1 => "Fixed1"
    | .fixed4 => "Fixed4"
    | .fixed8 => "Fixed8"]

/-- How it is written. -/
def Meth.text : Meth → String
  | .asRef => "as_ref"
  | .get => "get"
  | .size => "size"
  | .encode => "encode"
  | .okOr => "ok_or"

/-- How it is written. -/
def Wrap.text : Wrap → String
  | .some => "Some"
  | .ok => "Ok"
  | .err => "Err"

/-- How it is written. -/
def Memb.text : Memb → String
  | .value => "value"
  | .encoding => "encoding"

mutual
/-- Tokens of a type. -/
def TyE.tokens : TyE → List String
  | .path g segs args =>
    (if g then globalPath segs else localPath segs) ++
      (match args with
       | [] => []
       | a :: as => ["<"] ++ TyE.list (a :: as) ++ [">"])
  | .tuple ts => ["("] ++ TyE.list ts ++ [")"]
  | .array t n => ["["] ++ t.tokens ++ [";", Nat.repr n, "]"]
  | .slice t => ["["] ++ t.tokens ++ ["]"]
  | .ref t => ["&"] ++ t.tokens
/-- Types with commas. -/
def TyE.list : List TyE → List String
  | [] => []
  | t :: ts => t.tokens ++ [","] ++ TyE.list ts
end

/-- Tokens of `a::T::<..>::`. -/
def TyE.turbofish : TyE → List String
  | .path g segs [] => (if g then globalPath segs else localPath segs) ++ ["::"]
  | .path g segs args => (if g then globalPath segs else localPath segs) ++ ["::", "<"] ++ TyE.list args ++ [">", "::"]
  | t => ["<"] ++ t.tokens ++ [">", "::"]

/-- `{ a, b, }`, `(a, b,)` or nothing. -/
def names (kind : FieldKind) (ns : List String) : List String :=
  match kind with
  | .named => ["{"] ++ comma (ns.map ([·])) ++ ["}"]
  | .unnamed => ["("] ++ comma (ns.map ([·])) ++ [")"]
  | .unit => []

/-- Tokens of a pattern. -/
def Pat.tokens : Pat → List String
  | .lit n => [Nat.repr n]
  | .const c => globalPath c.segs
  | .wild => ["_"]
  | .bind x => [x]
  | .variant name kind ns => ["Self", "::", name] ++ names kind ns

/-- `"..."` -/
def quoted (s : String) : String := "\"" ++ s ++ "\""

mutual
/-- Tokens of an expression. -/
def Expr.tokens : Expr → List String
  | .var x => [x]
  | .lit n => [Nat.repr n]
  | .const c => globalPath c.segs
  | .ref e => "&" :: e.tokens
  | .deref e => "*" :: e.tokens
  | .index e i => e.tokens ++ [".", Nat.repr i]
  | .member e n => e.tokens ++ [".", n.text]
  | .method e n args => e.tokens ++ [".", n.text, "("] ++ Expr.list args ++ [")"]
  | .call f args => globalPath f.segs ++ ["("] ++ Expr.list args ++ [")"]
  | .wrap n e => [n.text, "("] ++ e.tokens ++ [")"]
  | .none => ["None"]
  | .okTyped e => ["Ok", "::", "<", "_", ","] ++ globalPath ["mabo", "buf", "Error"] ++ [">", "("] ++ e.tokens ++ [")"]
  | .decode ty e => ty.text.turbofish ++ ["decode", "("] ++ e.tokens ++ [")"]
  | .closure ps body => ["|"] ++ comma (ps.map ([·])) ++ ["|", "{"] ++ Stmt.list body ++ ["}"]
  | .block body => ["{"] ++ Stmt.list body ++ ["}"]
  | .try e => e.tokens ++ ["?"]
  | .tuple es => ["("] ++ Expr.list es ++ [")"]
  | .sum es => Expr.plus es
  | .assign x e => [x, "="] ++ e.tokens
  | .break => ["break"]
  | .loop body => ["loop", "{"] ++ Stmt.list body ++ ["}"]
  | .match e arms => ["match"] ++ e.tokens ++ ["{"] ++ Arm.list arms ++ ["}"]
  | .build v kind ns es =>
    ["Self"] ++ (match v with | some v => ["::", v] | Option.none => []) ++
      (match kind with
       | .named => ["{"] ++ Expr.inits ns es ++ ["}"]
       | .unnamed => ["("] ++ Expr.list es ++ [")"]
       | .unit => [])
  | .missing id n =>
    globalPath ["mabo", "buf", "Error", "MissingField"] ++ ["{", "id", ":", Nat.repr id, ",", "name", ":"] ++
      (match n with
       | some n => ["Some", "(", quoted n, ")"]
       | Option.none => ["None"]) ++ [",", "}"]
  | .unknown e => globalPath ["mabo", "buf", "Error", "UnknownVariant"] ++ ["("] ++ e.tokens ++ [")"]
/-- With commas. -/
def Expr.list : List Expr → List String
  | [] => []
  | e :: es => e.tokens ++ [","] ++ Expr.list es
/-- With `+` between. -/
def Expr.plus : List Expr → List String
  | [] => []
  | [e] => e.tokens
  | e :: es => e.tokens ++ ["+"] ++ Expr.plus es
/-- `a: e,`, or only `a,` if the variable has the same name. -/
def Expr.inits : List String → List Expr → List String
  | n :: ns, e :: es =>
    (match e with
     | .var x => if x = n then [n] else [n, ":", x]
     | e => [n, ":"] ++ e.tokens) ++ [","] ++ Expr.inits ns es
  | _, _ => []
/-- Tokens of a statement. -/
def Stmt.tokens : Stmt → List String
  | .semi e => e.tokens ++ [";"]
  | .tail e => e.tokens
  | .empty => [";"]
  | .slot x ty e => ["let", "mut", x, ":"] ++ ty.text.tokens ++ ["="] ++ e.tokens ++ [";"]
  | .bind x e => ["let", x, "="] ++ e.tokens ++ [";"]
  | .unpack kind ns => ["let", "Self"] ++ names kind ns ++ ["=", "self", ";"]
/-- One after the other. -/
def Stmt.list : List Stmt → List String
  | [] => []
  | s :: ss => s.tokens ++ Stmt.list ss
/-- Tokens of an arm. -/
def Arm.tokens : Arm → List String
  | .mk p e => p.tokens ++ ["=>"] ++ e.tokens ++ [","]
/-- One after the other. -/
def Arm.list : List Arm → List String
  | [] => []
  | a :: as => a.tokens ++ Arm.list as
end

/-- `#[doc = ".."]` for each line, `compile_comment`, definition.rs:219-222. -/
def docs (lines : List String) : List String :=
  (lines.map fun l => ["#", "[", "doc", "=", quoted (" " ++ l), "]"]).flatten

/-- `#[allow(..)]` -/
def allow (lints : List (List String)) : List String :=
  ["#", "[", "allow", "("] ++ comma (lints.map localPath) ++ [")", "]"]

/-- `<A, B,>` or nothing. -/
def angles (gs : List String) : List String :=
  if gs.isEmpty then [] else ["<"] ++ comma (gs.map ([·])) ++ [">"]

/-- `#[derive(Clone, Debug, PartialEq)]` with the lints of a definition, definition.rs:99-100,123-124. -/
def deriveTokens : List String :=
  ["#", "[", "derive", "("] ++ comma [["Clone"], ["Debug"], ["PartialEq"]] ++ [")", "]"] ++
    allow [["dead_code"], ["clippy", "module_name_repetitions"], ["clippy", "option_option"]]

/-- Tokens of the fields; `visible` puts `pub` before each. -/
def fieldDefs (visible : Bool) (kind : FieldKind) (fs : List FieldDef) : List String :=
  let p := if visible then ["pub"] else []
  match kind with
  | .named => ["{"] ++ comma (fs.map fun f => docs f.comment ++ p ++ [f.name, ":"] ++ f.ty.text.tokens) ++ ["}"]
  | .unnamed => ["("] ++ comma (fs.map fun f => p ++ f.ty.text.tokens) ++ [")"]
  | .unit => []

/-- `A + B` -/
def plusPaths : List (List String) → List String
  | [] => []
  | [p] => globalPath p
  | p :: ps => globalPath p ++ ["+"] ++ plusPaths ps

/-- Tokens of an implementation. -/
def Impl.tokens (i : Impl) : List String :=
  ["#", "[", "automatically_derived", "]", "impl"] ++ angles i.generics ++ globalPath i.trait ++ ["for", i.name] ++
    angles i.generics ++
    (if i.generics.isEmpty then [] else ["where"] ++ comma (i.generics.map fun g => [g, ":"] ++ plusPaths i.bounds)) ++
    ["{"] ++ allow (i.lints.map fun l => ["clippy", l]) ++ i.signature ++ ["{"] ++ Stmt.list i.body ++ ["}", "}"]

/-- Tokens of a literal; how numbers and strings are spelled is left to the crate proc-macro2. -/
def literalTokens : Ast.Literal → List String
  | .bool true => ["true"]
  | .bool false => ["false"]
  | .int i => [toString i]
  | .float _ => ["<float>"]
  | .string s => [quoted s]
  | .bytes _ => ["<bytes>"]

mutual
/-- Tokens of an item. -/
def Item.tokens : Item → List String
  | .traits => allow [["unused_imports"]] ++ ["use", "::", "mabo", "::", "buf", "::", "{"] ++
      comma [["Decode"], ["Encode"], ["Size"]] ++ ["}", ";"]
  | .module c n items => docs c ++ ["pub", "mod", n, "{"] ++ Item.list items ++ ["}"]
  | .struct c n gs kind fs => docs c ++ deriveTokens ++ ["pub", "struct", n] ++ angles gs ++ fieldDefs true kind fs ++
      (if kind = .named then [] else [";"])
  | .enum c n gs vs => docs c ++ deriveTokens ++ ["pub", "enum", n] ++ angles gs ++ ["{"] ++
      comma (vs.map fun v => docs v.comment ++ [v.name] ++ fieldDefs false v.kind v.fields) ++ ["}"]
  | .alias c n gs t => docs c ++
      allow [["dead_code"], ["clippy", "module_name_repetitions"], ["clippy", "option_option"]] ++
      ["pub", "type", n] ++ angles gs ++ ["="] ++ t.tokens ++ [";"]
  | .const c n t v => docs c ++ allow [["dead_code"]] ++ ["pub", "const", n, ":"] ++ t.tokens ++ ["="] ++
      literalTokens v ++ [";"]
  | .import segs => allow [["unused_imports"]] ++ ["use", "super", "::"] ++ localPath segs ++ [";"]
  | .impl i => i.tokens
/-- One after the other. -/
def Item.list : List Item → List String
  | [] => []
  | i :: is => i.tokens ++ Item.list is
end

end Mabo.Rust
