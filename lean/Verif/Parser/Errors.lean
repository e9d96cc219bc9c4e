import Verif.Parser.Schema
/-!
The parser once more, now with its errors: which error `Schema::parse` returns for a text that is no schema, with the
places it names (`crates/mabo-parser/src/error.rs`, `parser.rs`, `parser/*.rs`, `location.rs`, `ext.rs`).

The code of `winnow` 1.0 (`Cargo.lock`) is not in the repository; what is modelled of it is which error a combinator
passes on and where in the input it leaves the position when it fails: `from_input` makes the unspecific error of the
current position; `alt` passes on the error of the last alternative (the defaults of `ParserError::or` and `append`, which
the derived error types do not override); `literal`, `one_of`, `any`, `take_while` fail without moving, as do `verify`,
`verify_map`, `try_map` and `parse_to` (which reset); sequences stay where the part stopped that failed; `opt`, `repeat`
and `separated` pass on final errors only.

A position is the remaining input. Without the errors these parsers are those of `Parser/Schema.lean`
(`Parser/ErrorsLemmas.lean`).
-/
namespace Mabo.Failing
open Mabo.Parse (Text Res dropPrefix isSpace isMulti isLower isUpper isDigit isAlnum digitsVal Std)
open Mabo.Ast

/-- Result of a parser: the value and the remaining input, or the error and the position where the parser stopped; the
error is `final` (`ErrMode::Cut`) or recoverable (`ErrMode::Backtrack`). -/
inductive R (E α : Type) where
  | ok (a : α) (rest : Text)
  | fail (final : Bool) (e : E) (rest : Text)
deriving DecidableEq

/-- `winnow::Parser` with errors. -/
def F (E α : Type) := Text → R E α

/-- Sequencing. -/
instance (E : Type) : Monad (F E) where
  pure a := fun s => .ok a s
  bind p f := fun s => match p s with
    | .ok a r => f a r
    | .fail b e r => .fail b e r

/-- `ParserError::from_input`: the unspecific error of a position. -/
class FromInput (E : Type) where
  parser : Text → E

export FromInput (parser)

/-- `()` as an error. -/
instance : FromInput Unit := ⟨fun _ => ()⟩

section
variable {E E' α β : Type} [FromInput E]

/-- `fail`. -/
def fail : F E α := fun s => .fail false (parser s) s

omit [FromInput E] in
/-- `map_err2`, ext.rs:64-79: changes the error. -/
def mapErr (f : E → E') (p : F E α) : F E' α := fun s => match p s with
  | .ok a r => .ok a r
  | .fail b e r => .fail b (f e) r

omit [FromInput E] in
/-- `map_err` at the end of the functions and `map_err_loc`, ext.rs:112-128: changes the error, knowing where the parser
started and where it stopped. -/
def mapErrAt (f : Text → Text → E → E') (p : F E α) : F E' α := fun s => match p s with
  | .ok a r => .ok a r
  | .fail b e r => .fail b (f s r e) r

omit [FromInput E] in
/-- `cut_err`. -/
def cutErr (p : F E α) : F E α := fun s => match p s with
  | .ok a r => .ok a r
  | .fail _ e r => .fail true e r

omit [FromInput E] in
/-- `opt`. -/
def opt (p : F E α) : F E (Option α) := fun s => match p s with
  | .ok a r => .ok (some a) r
  | .fail false _ _ => .ok none s
  | .fail true e r => .fail true e r

omit [FromInput E] in
/-- `alt((p, q))`. -/
def alt (p q : F E α) : F E α := fun s => match p s with
  | .ok a r => .ok a r
  | .fail false _ _ => q s
  | .fail true e r => .fail true e r

/-- `literal("...")`. -/
def lit (w : String) : F E Unit := fun s => match dropPrefix w.toList s with
  | some r => .ok () r
  | none => .fail false (parser s) s

/-- `one_of(set)`. -/
def oneOf (f : Char → Bool) : F E Char := fun s => match s with
  | [] => .fail false (parser s) s
  | d :: r => if f d then .ok d r else .fail false (parser s) s

/-- A literal character. -/
def chr (c : Char) : F E Unit := fun s => match s with
  | [] => .fail false (parser s) s
  | d :: r => if d = c then .ok () r else .fail false (parser s) s

/-- `peek(any)`. -/
def peekAny : F E Char := fun s => match s with
  | [] => .fail false (parser s) s
  | d :: _ => .ok d s

/-- `take_while(min.., set)`. -/
def takeWhile (min : Nat) (f : Char → Bool) : F E Text := fun s =>
  if (s.takeWhile f).length < min then .fail false (parser s) s else .ok (s.takeWhile f) (s.dropWhile f)

/-- `take_while(min..=max, set)`. -/
def takeWhileMax (min max : Nat) (f : Char → Bool) : F E Text := fun s =>
  let w := (s.takeWhile f).take max
  if w.length < min then .fail false (parser s) s else .ok w (s.drop w.length)

/-- `space0`. -/
def space0 : F E Text := takeWhile 0 isSpace
/-- `space1`. -/
def space1 : F E Text := takeWhile 1 isSpace
/-- `multispace0`. -/
def multi0 : F E Text := takeWhile 0 isMulti
/-- `multispace1`. -/
def multi1 : F E Text := takeWhile 1 isMulti

/-- `preceded(space0, p)`. -/
def sp (p : F E α) : F E α := do let _ ← space0; p

/-- `ws`, parser.rs:208-215. -/
def ws (p : F E α) : F E α := do let _ ← multi0; p

/-- Loop of `repeat(0.., p)`. -/
def manyAux (p : F E α) : Nat → Text → R E (List α)
  | 0, s => .fail true (parser s) s
  | n + 1, s => match p s with
    | .fail false _ _ => .ok [] s
    | .fail true e r => .fail true e r
    | .ok a r =>
      if r.length = s.length then .fail true (parser r) r
      else match manyAux p n r with
        | .ok as r => .ok (a :: as) r
        | .fail b e r => .fail b e r

/-- `repeat(0.., p)`. -/
def many (p : F E α) : F E (List α) := fun s => manyAux p (s.length + 1) s

/-- `repeat(1.., p)`. -/
def many1 (p : F E α) : F E (List α) := do let a ← p; let as ← many p; pure (a :: as)

/-- `separated(1.., p, sep)`. -/
def separated1 (p : F E α) (sep : F E β) : F E (List α) := do
  let a ← p
  let as ← many (do let _ ← sep; p)
  pure (a :: as)

/-- Loop of `punctuate`, parser.rs:219-270, as in `Parser/Comb.lean`. -/
def punctuateAux (f : F E α) (g : F E (α × Bool)) : Nat → List α → Option (Text × List α) → Text → R E (List α × Bool)
  | 0, _, _, s => .fail true (parser s) s
  | n + 1, acc, prev, s =>
    match f s with
    | .ok a r => if r.length = s.length then .fail true (parser r) r else punctuateAux f g n (a :: acc) (some (s, acc)) r
    | .fail true e r => .fail true e r
    | .fail false _ _ =>
      match g s with
      | .ok (a, t) r => .ok ((a :: acc).reverse, t) r
      | .fail true e r => .fail true e r
      | .fail false e r =>
        match prev with
        | none => .fail false e r
        | some (s', acc') =>
          match g s' with
          | .ok (a, t) r => .ok ((a :: acc').reverse, t) r
          | .fail b e r => .fail b e r

/-- `punctuate(f, g)`, parser.rs:219-270. -/
def punctuate (f : F E α) (g : F E (α × Bool)) : F E (List α × Bool) :=
  fun s => punctuateAux f g (s.length + 1) [] none s

/-- `surround`, parser.rs:272-287. -/
def surround (o c : Char) (p : F E α) : F E α := do
  chr o
  cutErr (do let a ← p; ws (chr c); pure a)

/-- `punctuate((p, ws(Comma)), (p, opt(ws(Comma))))`. -/
def commaList (p : F E α) : F E (List α × Bool) :=
  punctuate (do let a ← p; ws (chr ','); pure a) (do let a ← p; let c ← opt (ws (chr ',')); pure (a, c.isSome))

/-- `(one_of(head), take_while(0.., tail)).take()`. -/
def name (head tail : Char → Bool) : F E String := do
  let c ← oneOf head
  let cs ← takeWhile 0 tail
  pure (String.ofList (c :: cs))

/-- `dec_uint`: fails without moving. -/
def decUint (bound : Nat) : F E Nat := fun s => match Parse.decUint bound s with
  | .ok n r => .ok n r
  | _ => .fail false (parser s) s

/-- `take()`. -/
def taken (p : F E α) : F E Text := fun s => match p s with
  | .ok _ r => .ok (s.take (s.length - r.length)) r
  | .fail b e r => .fail b e r

end

/-! ### Places -/

/-- Where a range stops: at a position, or at an offset from the start of the text. -/
inductive Stop where
  | here (rest : Text)
  | offset (n : Nat)
deriving DecidableEq

/-- The field `at` of the errors of declarations, a `Range<usize>`. -/
structure At where
  start : Text
  stop : Stop
deriving DecidableEq

/-- `Stream::offset_for(|c| c == target)` of a string: the number of bytes before the first such character. -/
def offsetFor (target : Char) : Text → Option Nat
  | [] => none
  | c :: s => if c = target then some 0 else (offsetFor target s).map (c.utf8Size + ·)

/-- `location::from_until`, location.rs:8-26: the offset is counted from `start`, but used as the end of the range. -/
def fromUntil (chars : List Char) (start : Text) : At :=
  ⟨start, match chars.findSome? fun c => offsetFor c start with
    | some pos => .offset (pos + 1)
    | none => .here start⟩

/-- `input.current_token_start()..input.current_token_start()` where the parser stopped. -/
def atStop (stopped : Text) : At := ⟨stopped, .here stopped⟩

/-! ### Errors -/

/-- `ParseError` of `comments`, parser.rs:158-177 (its cause is always `Parser`). -/
structure CommentError where
  at_ : At
  cause : Text
deriving DecidableEq

/-- `ParseError` of `ids`, parser.rs:108-124 (its cause is always `Parser`). -/
structure IdError where
  at_ : At
  cause : Text
deriving DecidableEq

/-- `generics::Cause`, generics.rs:29-43. -/
inductive GenericsCause where
  | parser (pos : Text)
  | invalidName (pos : Text)
deriving DecidableEq

mutual
/-- `types::Cause`, types.rs:34-46. -/
inductive TypeCause where
  | parser (pos : Text)
  | type (at_ : At) (cause : TypeCause)
  | segment (cause : ImportCause)
/-- `imports::Cause`, imports.rs:35-63. -/
inductive ImportCause where
  | parser (pos : Text)
  | invalidSegmentName (pos : Text)
  | structName (cause : StructCause)
  | enumName (cause : EnumCause)
/-- `structs::Cause`, structs.rs:35-63. -/
inductive StructCause where
  | parser (pos : Text)
  | invalidName (pos : Text)
  | generics (at_ : At) (cause : GenericsCause)
  | fields (at_ : At) (cause : FieldsCause)
/-- `enums::Cause`, enums.rs:35-85. -/
inductive EnumCause where
  | parser (pos : Text)
  | invalidName (pos : Text)
  | invalidVariantName (pos : Text)
  | generics (at_ : At) (cause : GenericsCause)
  | field (at_ : At) (cause : FieldsCause)
  | comment (e : CommentError)
  | id (e : IdError)
/-- `fields::Cause`, fields.rs:40-71. -/
inductive FieldsCause where
  | parser (pos : Text)
  | invalidName (pos : Text)
  | type (at_ : At) (cause : TypeCause)
  | id (e : IdError)
  | comment (e : CommentError)
end

/-- `literals::Cause`, literals.rs:48-88; `ParseInt` carries a `ParseIntError`, which no code makes. -/
inductive LiteralCause where
  | parser (pos : Text)
  | foundReference (pos : Text)
  | invalidInt (pos : Text)
deriving DecidableEq

/-- `consts::Cause`, consts.rs:35-76. -/
inductive ConstCause where
  | parser (pos : Text)
  | unexpectedChar (pos : Text) (expected : Char)
  | invalidName (pos : Text)
  | type (at_ : At) (cause : TypeCause)
  | literal (at_ : At) (cause : LiteralCause)

/-- `aliases::Cause`, aliases.rs:35-63. -/
inductive AliasCause where
  | parser (pos : Text)
  | invalidName (pos : Text)
  | generics (at_ : At) (cause : GenericsCause)
  | type (at_ : At) (cause : TypeCause)

/-- `attributes::Cause`, attributes.rs:38-46. -/
inductive AttributeCause where
  | parser (pos : Text)
  | literal (at_ : At) (cause : LiteralCause)

mutual
/-- `modules::Cause`, modules.rs:35-60. -/
inductive ModuleCause where
  | parser (pos : Text)
  | invalidName (pos : Text)
  | definition (e : DefinitionError)
/-- `ParseDefinitionError`, error.rs:136-166. -/
inductive DefinitionError where
  | parser (pos : Text)
  | comment (e : CommentError)
  | attribute (at_ : At) (cause : AttributeCause)
  | module (at_ : At) (cause : ModuleCause)
  | struct (at_ : At) (cause : StructCause)
  | enum (at_ : At) (cause : EnumCause)
  | const (at_ : At) (cause : ConstCause)
  | alias (at_ : At) (cause : AliasCause)
  | import (at_ : At) (cause : ImportCause)
end

/-- `ParseSchemaCause`, error.rs:78-89. -/
inductive SchemaCause where
  | parser (pos : Text)
  | comment (e : CommentError)
  | definition (e : DefinitionError)

instance : FromInput Text := ⟨fun s => s⟩
instance : FromInput GenericsCause := ⟨.parser⟩
instance : FromInput TypeCause := ⟨.parser⟩
instance : FromInput ImportCause := ⟨.parser⟩
instance : FromInput StructCause := ⟨.parser⟩
instance : FromInput EnumCause := ⟨.parser⟩
instance : FromInput FieldsCause := ⟨.parser⟩
instance : FromInput LiteralCause := ⟨.parser⟩
instance : FromInput ConstCause := ⟨.parser⟩
instance : FromInput AliasCause := ⟨.parser⟩
instance : FromInput AttributeCause := ⟨.parser⟩
instance : FromInput ModuleCause := ⟨.parser⟩
instance : FromInput DefinitionError := ⟨.parser⟩
instance : FromInput SchemaCause := ⟨.parser⟩

/-! ### Types -/

/-- A `parse_name`: the error is the given cause at the place where the name parser stopped. -/
def nameOr {E : Type} (cause : Text → E) (head tail : Char → Bool) : F E String :=
  mapErrAt (fun _ stopped () => cause stopped) (name head tail)

/-- `parse_basic`, types.rs:69-96. -/
def parseBasic : F TypeCause DataType :=
  alt (do
    let w ← takeWhile 2 Parse.isBasicChar
    match Parse.basicOf (String.ofList w) with
    | some p => pure (.prim p)
    | none => fail)
  (alt (do lit "box<string>"; pure (.prim .boxString)) (do lit "box<bytes>"; pure (.prim .boxBytes)))

/-- `parse.map_err2(Cause::from)` in types.rs. -/
def inner (rec : F (At × TypeCause) DataType) : F TypeCause DataType := mapErr (fun e => .type e.1 e.2) rec

/-- `parse_single` in `parse_generic`, types.rs:99-112. -/
def parseSingle (rec : F (At × TypeCause) DataType) : F TypeCause DataType := cutErr (surround '<' '>' (inner rec))

/-- `parse_pair` in `parse_generic`, types.rs:114-130. -/
def parsePair (rec : F (At × TypeCause) DataType) : F TypeCause (DataType × DataType) :=
  cutErr (surround '<' '>' (do
    let k ← inner rec
    sp (chr ',')
    let v ← sp (inner rec)
    pure (k, v)))

/-- `parse_generic`, types.rs:98-165. -/
def parseGeneric (rec : F (At × TypeCause) DataType) : F TypeCause DataType := do
  let w ← takeWhile 3 Parse.isGenericChar
  let w := String.ofList w
  if w = "vec" then do let t ← parseSingle rec; pure (.vec t)
  else if w = "hash_map" then do let (k, v) ← parsePair rec; pure (.hashMap k v)
  else if w = "hash_set" then do let t ← parseSingle rec; pure (.hashSet t)
  else if w = "option" then do let t ← parseSingle rec; pure (.option t)
  else if w = "non_zero" then do let t ← parseSingle rec; pure (.nonZero t)
  else fail

/-- `parse_tuple`, types.rs:167-177. -/
def parseTuple (rec : F (At × TypeCause) DataType) : F TypeCause DataType := do
  let (ts, trailing) ← surround '(' ')' (commaList (ws (inner rec)))
  pure (.tuple ts trailing)

/-- `parse_array`, types.rs:179-193. -/
def parseArray (rec : F (At × TypeCause) DataType) : F TypeCause DataType := do
  let (t, n) ← surround '[' ']' (do
    let t ← ws (inner rec)
    ws (chr ';')
    let n ← ws (decUint (2 ^ 32))
    pure (t, n))
  pure (.array t (BitVec.ofNat 32 n))

/-- `imports::parse_segment`, imports.rs:104-118. -/
def parseSegment : F ImportCause String := nameOr .invalidSegmentName isLower Parse.isSegChar

/-- `parse_external`, types.rs:195-221. -/
def parseExternal (rec : F (At × TypeCause) DataType) : F TypeCause DataType := do
  let path ← opt (many1 (do let s ← mapErr TypeCause.segment parseSegment; lit "::"; pure s))
  let name ← name isUpper Parse.isExtChar
  let generics ← opt (surround '<' '>' (commaList (ws (inner rec))))
  match generics with
  | some (ts, trailing) => pure (.external (path.getD []) name ts trailing)
  | none => pure (.external (path.getD []) name [] false)

/-- `types::parse`, types.rs:49-67, with `rec` for the recursive calls. -/
def typeBody (rec : F (At × TypeCause) DataType) : F (At × TypeCause) DataType :=
  mapErrAt (fun start stopped cause => (⟨start, .here stopped⟩, cause)) <|
    alt parseBasic <| alt (parseGeneric rec) <| alt (parseTuple rec) <| alt (parseArray rec) (parseExternal rec)

/-- `typeBody` iterated to a depth. -/
def typeDepth : Nat → F (At × TypeCause) DataType
  | 0 => fun s => .fail true (atStop s, .parser s) s
  | n + 1 => typeBody (typeDepth n)

/-- `types::parse`, types.rs:49-67. -/
def parseType : F (At × TypeCause) DataType := fun s => typeDepth (s.length + 1) s

/-- `ids::parse`, parser.rs:122-134. -/
def parseId : F IdError (BitVec 32) :=
  mapErrAt (fun _ stopped () => ⟨atStop stopped, stopped⟩) (do
    chr '@'
    let n ← decUint (2 ^ 32)
    pure (BitVec.ofNat 32 n))

/-! ### Literals -/

/-- `opt(one_of(['+', '-']))`. -/
def optSign {E : Type} [FromInput E] : F E (Option Char) := opt (oneOf fun c => c == '+' || c == '-')

/-- `parse_float`, literals.rs:125-134; `f64::from_str` succeeds on what is recognised. -/
def parseFloat (std : Std) : F LiteralCause Literal := do
  let t ← taken (do
    let _ ← optSign
    let _ ← takeWhile 1 isDigit
    chr '.'
    let _ ← takeWhile 1 isDigit
    let _ ← opt (do
      let _ ← oneOf fun c => c == 'e' || c == 'E'
      let _ ← optSign
      cutErr (takeWhile 1 isDigit))
    pure ())
  pure (.float (std.readFloat t))

/-- `(opt(one_of(['+', '-'])), digit1).take().parse_to()`, literals.rs:137-139: a number that is out of range is an error
at the start. -/
def intText : F Unit Literal := fun s =>
  (do
    let sign ← optSign
    let ds ← takeWhile 1 isDigit
    let v := Parse.intVal sign ds
    if -2 ^ 127 ≤ v ∧ v < 2 ^ 127 then pure (.int v) else fun _ => .fail false () s : F Unit Literal) s

/-- `parse_int`, literals.rs:136-146. -/
def parseInt : F LiteralCause Literal := mapErrAt (fun _ stopped () => .invalidInt stopped) intText

/-- `parse_string_unicode`, literals.rs:208-220: a number that is no character is an error at the start. -/
def parseUnicode : F LiteralCause Char := fun s =>
  (do
    chr 'u'
    let ds ← cutErr (do chr '{'; let ds ← takeWhileMax 1 6 Parse.isHex; chr '}'; pure ds)
    match Parse.charOf (Parse.hexVal ds) with
    | some c => pure c
    | none => fun _ => .fail false (parser s) s : F LiteralCause Char) s

/-- Dispatch of `parse_string_escaped_char`, literals.rs:187-206. -/
def escapedChar : F LiteralCause Char := do
  let c ← peekAny
  if c = 'n' then do chr 'n'; pure '\n'
  else if c = 'r' then do chr 'r'; pure '\r'
  else if c = 't' then do chr 't'; pure '\t'
  else if c = 'b' then do chr 'b'; pure '\x08'
  else if c = 'f' then do chr 'f'; pure '\x0c'
  else if c = '\\' then do chr '\\'; pure '\\'
  else if c = '\x00' then do chr '\x00'; pure '\x00'
  else if c = '/' then do chr '/'; pure '/'
  else if c = '"' then do chr '"'; pure '"'
  else if c = 'u' then parseUnicode
  else fail

/-- `parse_fragment`, literals.rs:172-179. -/
def parseFragment : F LiteralCause Text :=
  alt (takeWhile 1 Parse.isPlain)
    (alt (do chr '\\'; let c ← escapedChar; pure [c]) (do chr '\\'; let _ ← multi1; pure []))

/-- `parse_string`, literals.rs:148-164. -/
def parseString : F LiteralCause Literal := do
  chr '"'
  let frs ← cutErr (do let frs ← many parseFragment; chr '"'; pure frs)
  pure (.string (String.ofList frs.flatten))

/-- `parse_bytes`, literals.rs:226-235. -/
def parseBytes : F LiteralCause Literal := do
  chr '['
  let bs ← cutErr (do
    let bs ← separated1 (ws (decUint 256)) (ws (chr ','))
    let _ ← opt (ws (chr ','))
    ws (chr ']')
    pure bs)
  pure (.bytes (bs.map UInt8.ofNat))

/-- `literals::parse`, literals.rs:90-115. -/
def parseLiteral (std : Std) : F (At × LiteralCause) Literal :=
  mapErrAt (fun start _ cause => (atStop start, cause)) (do
    let c ← peekAny
    if c = 't' then do lit "true"; pure (.bool true)
    else if c = 'f' then do lit "false"; pure (.bool false)
    else if c = '+' ∨ c = '-' ∨ isDigit c = true then cutErr (alt (parseFloat std) parseInt)
    else if c = '"' then parseString
    else if c = '[' then parseBytes
    else fail)

/-! ### Comments and attributes -/

/-- One line of `comments::parse`, parser.rs:183-192. -/
def commentLine : F Text String := do
  let _ ← space0
  lit "///"
  let _ ← space0
  let v ← takeWhile 0 (· != '\n')
  chr '\n'
  pure (String.ofList v)

/-- `comments::parse`, parser.rs:179-203. -/
def parseComments : F CommentError (List String) :=
  mapErrAt (fun start _ cause => ⟨fromUntil ['\n'] start, cause⟩) (many commentLine)

/-- `separated(1.., ws((parse_name, parse_value)), ws(Comma))`, `opt(Comma)` and the closing delimiter,
attributes.rs:69-81 and 105-117. -/
def attrList (close : Char) (rec : F AttributeCause Attribute) : F AttributeCause (List Attribute) := do
  let as ← separated1 (ws rec) (ws (chr ','))
  let _ ← opt (chr ',')
  ws (chr close)
  pure as

/-- `parse_single_value`, attributes.rs:120-126. -/
def attrSingle (std : Std) (n : String) : F AttributeCause Attribute := do
  let _ ← space0
  chr '='
  let _ ← space0
  let l ← mapErr (fun e => .literal e.1 e.2) (parseLiteral std)
  pure (.single n l)

/-- `(parse_name, parse_value)`, attributes.rs:73 and 84-130, with `rec` for the nested attributes. -/
def attrBody (std : Std) (rec : F AttributeCause Attribute) : F AttributeCause Attribute := do
  let n ← name isLower Parse.isSegChar
  alt (do chr '('; let as ← cutErr (attrList ')' rec); pure (.multi n as)) <|
    alt (attrSingle std n) (pure (.unit n))

/-- `attrBody` iterated to a depth. -/
def attrDepth (std : Std) : Nat → F AttributeCause Attribute
  | 0 => fun s => .fail true (.parser s) s
  | n + 1 => attrBody std (attrDepth std n)

/-- `(parse_name, parse_value)`, attributes.rs:84-130. -/
def parseAttr (std : Std) : F AttributeCause Attribute := fun s => attrDepth std (s.length + 1) s

/-- `parse_attribute`, attributes.rs:66-82. -/
def parseAttribute (std : Std) : F AttributeCause (List Attribute) := do
  lit "#"
  chr '['
  cutErr (attrList ']' (parseAttr std))

/-- `attributes::parse`, attributes.rs:48-64. -/
def parseAttributes (std : Std) : F (At × AttributeCause) (List Attribute) :=
  mapErrAt (fun start _ cause => (atStop start, cause)) (do
    let ass ← many (do let as ← parseAttribute std; chr '\n'; pure as)
    pure ass.flatten)

/-! ### Fields and generics -/

/-- `parse_named_field`, fields.rs:129-149. -/
def parseNamedField : F FieldsCause NamedField := do
  let comment ← ws (mapErr FieldsCause.comment parseComments)
  let name ← sp (nameOr .invalidName isLower Parse.isSegChar)
  sp (chr ':')
  let ty ← sp (mapErr (fun e => .type e.1 e.2) parseType)
  let id ← opt (sp (mapErr FieldsCause.id parseId))
  pure { comment, name, ty, id }

/-- `parse_unnamed_field`, fields.rs:115-127. -/
def parseUnnamedField : F FieldsCause UnnamedField := do
  let ty ← ws (mapErr (fun e => .type e.1 e.2) parseType)
  let id ← opt (sp (mapErr FieldsCause.id parseId))
  pure { ty, id }

/-- `fields::parse`, fields.rs:73-113. -/
def parseFields : F (At × FieldsCause) Fields :=
  mapErrAt (fun start _ cause => (fromUntil [',', '\n'] start, cause)) (do
    let c ← peekAny
    if c = '{' then do
      let (fs, t) ← surround '{' '}' (commaList parseNamedField)
      pure (.named fs t)
    else if c = '(' then do
      let (fs, t) ← surround '(' ')' (commaList parseUnnamedField)
      pure (.unnamed fs t)
    else pure .unit)

/-- `generics::parse`, generics.rs:45-71. -/
def genericsParser : F (At × GenericsCause) (List String × Bool) :=
  mapErrAt (fun _ stopped cause => (atStop stopped, cause))
    (surround '<' '>' (commaList (ws (nameOr .invalidName isUpper isAlnum))))

/-- `opt(generics::parse.map_err2(...))`. -/
def parseGenerics {E : Type} (f : At × GenericsCause → E) : F E (List String × Bool) := do
  let o ← opt (mapErr f genericsParser)
  pure (o.getD ([], false))

/-! ### Definitions -/

/-- `structs::parse`, structs.rs:65-95, with `parse_name`, 97-108. -/
def parseStruct : F (At × StructCause) Struct :=
  mapErrAt (fun start _ cause => (fromUntil ['}', '\n'] start, cause)) (do
    lit "struct"
    let _ ← space1
    cutErr (do
      let name ← nameOr .invalidName isUpper isAlnum
      let g ← parseGenerics (fun e => .generics e.1 e.2)
      let fields ← sp (mapErr (fun e => .fields e.1 e.2) parseFields)
      pure { name, generics := g.1, genericsTrailing := g.2, fields }))

/-- `parse_variant`, enums.rs:137-155, with `parse_variant_name`, 157-166. -/
def parseVariant : F EnumCause Variant := do
  let comment ← ws (mapErr EnumCause.comment parseComments)
  let name ← sp (nameOr .invalidVariantName isUpper isAlnum)
  let fields ← sp (mapErr (fun e => .field e.1 e.2) parseFields)
  let id ← opt (sp (mapErr EnumCause.id parseId))
  pure { comment, name, fields, id }

/-- `enums::parse`, enums.rs:87-112, with `parse_name`, 114-125. -/
def parseEnum : F (At × EnumCause) Enum :=
  mapErrAt (fun _ stopped cause => (atStop stopped, cause)) (do
    lit "enum"
    let _ ← space1
    cutErr (do
      let name ← nameOr .invalidName isUpper isAlnum
      let g ← parseGenerics (fun e => .generics e.1 e.2)
      let vs ← sp (surround '{' '}' (commaList parseVariant))
      pure { name, generics := g.1, genericsTrailing := g.2, variants := vs.1, variantsTrailing := vs.2 }))

/-- `aliases::parse`, aliases.rs:65-94, with `parse_name`, 96-107. -/
def parseAlias : F (At × AliasCause) TypeAlias :=
  mapErrAt (fun _ stopped cause => (atStop stopped, cause)) (do
    lit "type"
    let _ ← space1
    cutErr (do
      let name ← nameOr .invalidName isUpper isAlnum
      let g ← parseGenerics (fun e => .generics e.1 e.2)
      sp (chr '=')
      let target ← sp (mapErr (fun e => .type e.1 e.2) parseType)
      sp (chr ';')
      pure { name, generics := g.1, genericsTrailing := g.2, target }))

/-- `consts::parse`, consts.rs:78-128. -/
def parseConst (std : Std) : F (At × ConstCause) Const :=
  mapErrAt (fun start _ cause => (fromUntil [';'] start, cause)) (do
    lit "const"
    let _ ← space1
    cutErr (do
      let name ← nameOr .invalidName isUpper Parse.isConstChar
      chr ':'
      let ty ← sp (mapErr (fun e => .type e.1 e.2) parseType)
      sp (chr '=')
      let value ← sp (mapErr (fun e => .literal e.1 e.2) (parseLiteral std))
      mapErrAt (fun _ stopped () => .unexpectedChar stopped ';') (chr ';')
      pure { name, ty, value }))

/-- `imports::parse`, imports.rs:65-102. -/
def parseImport : F (At × ImportCause) Import :=
  mapErrAt (fun start _ cause => (fromUntil [';'] start, cause)) (do
    lit "use"
    let _ ← space1
    cutErr (do
      let segments ← separated1 parseSegment (lit "::")
      let element ← opt (do
        lit "::"
        alt (mapErr ImportCause.structName (nameOr .invalidName isUpper isAlnum))
          (mapErr ImportCause.enumName (nameOr .invalidName isUpper isAlnum)))
      chr ';'
      pure { segments, element }))

/-- `modules::parse`, modules.rs:62-105, with `rec` for `parse_definition`. -/
def parseModule (rec : F DefinitionError Definition) : F (At × ModuleCause) Definition :=
  mapErrAt (fun start _ cause => (fromUntil ['}', '\n'] start, cause)) (do
    lit "mod"
    let _ ← space1
    cutErr (do
      let name ← nameOr .invalidName isLower Parse.isSegChar
      let ds ← sp (surround '{' '}' (many (ws (mapErr ModuleCause.definition rec))))
      pure (.module [] name ds)))

/-- The dispatch of `parse_definition`, parser.rs:83-92. -/
def defKind (std : Std) (rec : F DefinitionError Definition) : F DefinitionError Definition := do
  let c ← peekAny
  if c = 'm' then mapErr (fun e => .module e.1 e.2) (parseModule rec)
  else if c = 's' then do let s ← mapErr (fun e => .struct e.1 e.2) parseStruct; pure (.struct s)
  else if c = 'e' then do let e ← mapErr (fun e => .enum e.1 e.2) parseEnum; pure (.enum e)
  else if c = 'c' then do let k ← mapErr (fun e => .const e.1 e.2) (parseConst std); pure (.const k)
  else if c = 't' then do let a ← mapErr (fun e => .alias e.1 e.2) parseAlias; pure (.typeAlias a)
  else if c = 'u' then do let i ← mapErr (fun e => .import e.1 e.2) parseImport; pure (.import i)
  else fail

/-- `parse_definition`, parser.rs:78-98, with `rec` for the definitions of a module. -/
def defBody (std : Std) (rec : F DefinitionError Definition) : F DefinitionError Definition := do
  let comment ← ws (mapErr DefinitionError.comment parseComments)
  let attributes ← ws (mapErr (fun e => .attribute e.1 e.2) (parseAttributes std))
  let d ← sp (defKind std rec)
  pure (Parse.withAttributes (Parse.withComment d comment) attributes)

/-- `defBody` iterated to a depth. -/
def defDepth (std : Std) : Nat → F DefinitionError Definition
  | 0 => fun s => .fail true (.parser s) s
  | n + 1 => defBody std (defDepth std n)

/-- `parse_definition`, parser.rs:78-98. -/
def parseDefinition (std : Std) : F DefinitionError Definition := fun s => defDepth std (s.length + 1) s

/-- `parse_schema`, parser.rs:51-76. -/
def schemaParser (std : Std) : F SchemaCause Schema := do
  let comment ← opt (do let c ← ws (mapErr SchemaCause.comment parseComments); chr '\n'; pure c)
  let definitions ← many (mapErr SchemaCause.definition (parseDefinition std))
  let _ ← multi0
  pure { comment := comment.getD [], definitions }

/-- `eof`. -/
def eof {E : Type} [FromInput E] : F E Unit := fun s => if s = [] then .ok () s else .fail false (parser s) s

/-- `Schema::parse`, lib.rs:160-174: `Parser::parse` is the parser followed by `eof`. -/
def parseSchema (std : Std) (text : Text) : Except SchemaCause Schema :=
  match (do let s ← schemaParser std; eof; pure s : F SchemaCause Schema) text with
  | .ok s _ => .ok s
  | .fail _ e _ => .error e

/-! ### Diagnostics of the language server -/

/-- `Display for Cause::Parser` (mabo-derive/src/cause.rs) and error.rs:107, 188. -/
def parserMessage (text pos : Text) : String :=
  "Parser error at offset " ++
    Nat.repr ((text.map Char.utf8Size).sum - (pos.map Char.utf8Size).sum)

/-- `parse_comment_diagnostic`, compile.rs:142-144; the start of the range. -/
def commentReport (e : CommentError) : Text × String := (e.at_.start, "Failed to parse comment declaration")

/-- `parse_id_diagnostic`, compile.rs:195-197. -/
def idReport (e : IdError) : Text × String := (e.at_.start, "Failed to parse id declaration")

/-- `parse_generics_diagnostic`, compile.rs:171-180. -/
def genericsReport : GenericsCause → Text × String
  | .parser pos => (pos, "Failed to parse generics declaration")
  | .invalidName pos => (pos, "TODO!")

mutual
/-- `parse_type_diagnostic`, compile.rs:132-140. -/
def typeReport (text : Text) : TypeCause → Text × String
  | .parser pos => (pos, "Failed to parse type definition")
  | .type _ cause => typeReport text cause
  | .segment cause => importReport text cause
/-- `parse_import_cause_diagnostic`, compile.rs:146-169. -/
def importReport (text : Text) : ImportCause → Text × String
  | .parser pos => (pos, parserMessage text pos)
  | .invalidSegmentName pos => (pos, "Invalid segment name")
  | .structName cause => structCauseReport text cause
  | .enumName cause => enumCauseReport text cause
/-- The arm `StructName`, compile.rs:151-157. -/
def structCauseReport (text : Text) : StructCause → Text × String
  | .parser pos => (pos, parserMessage text pos)
  | .invalidName pos => (pos, "Invalid struct name")
  | .generics _ cause => genericsReport cause
  | .fields _ cause => fieldsReport text cause
/-- The arm `EnumName`, compile.rs:158-167. -/
def enumCauseReport (text : Text) : EnumCause → Text × String
  | .parser pos => (pos, parserMessage text pos)
  | .invalidName pos => (pos, "Invalid enum name")
  | .invalidVariantName pos => (pos, "Invalid variant name")
  | .generics _ cause => genericsReport cause
  | .field _ cause => fieldsReport text cause
  | .comment e => commentReport e
  | .id e => idReport e
/-- `parse_fields_diagnostic`, compile.rs:182-193. -/
def fieldsReport (text : Text) : FieldsCause → Text × String
  | .parser pos => (pos, "Failed to parse fields declaration")
  | .invalidName pos => (pos, "Invalid field name")
  | .type _ cause => typeReport text cause
  | .id e => idReport e
  | .comment e => commentReport e
end

/-- The literal arms, compile.rs:55-63 and 106-115. -/
def literalReport : LiteralCause → Text × String
  | .parser pos => (pos, "Failed to parse literal value")
  | .foundReference pos => (pos, "Found a reference value")
  | .invalidInt pos => (pos, "Invalid integer literal")

/-- The arm `Attribute`, compile.rs:51-64; the message is attributes.rs:21. -/
def attributeReport : AttributeCause → Text × String
  | .parser pos => (pos, "Failed to parse struct declaration")
  | .literal _ cause => literalReport cause

/-- The arm `Struct`, compile.rs:74-83. -/
def structReport (text : Text) : StructCause → Text × String
  | .parser pos => (pos, "Failed to parse struct declaration")
  | cause => structCauseReport text cause

/-- The arm `Enum`, compile.rs:84-95. -/
def enumReport (text : Text) : EnumCause → Text × String
  | .parser pos => (pos, "Failed to parse enum declaration")
  | cause => enumCauseReport text cause

/-- The arm `Const`, compile.rs:96-116. -/
def constReport (text : Text) : ConstCause → Text × String
  | .parser pos => (pos, "Failed to parse const declaration")
  | .unexpectedChar pos _ => (pos, "Unexpected character")
  | .invalidName pos => (pos, "Invalid const name")
  | .type _ cause => typeReport text cause
  | .literal _ cause => literalReport cause

/-- The arm `Alias`, compile.rs:117-126. -/
def aliasReport (text : Text) : AliasCause → Text × String
  | .parser pos => (pos, "Failed to parse type alias declaration")
  | .invalidName pos => (pos, "Invalid alias name")
  | .generics _ cause => genericsReport cause
  | .type _ cause => typeReport text cause

mutual
/-- The arm `Module`, compile.rs:65-73; the message is modules.rs:19. -/
def moduleReport (text : Text) : ModuleCause → Text × String
  | .parser pos => (pos, "Failed to parse id declaration")
  | .invalidName pos => (pos, "Invalid module name")
  | .definition e => definitionReport text e
/-- `parse_definition_diagnostic`, compile.rs:44-130. -/
def definitionReport (text : Text) : DefinitionError → Text × String
  | .parser pos => (pos, parserMessage text pos)
  | .comment e => commentReport e
  | .attribute _ cause => attributeReport cause
  | .module _ cause => moduleReport text cause
  | .struct _ cause => structReport text cause
  | .enum _ cause => enumReport text cause
  | .const _ cause => constReport text cause
  | .alias _ cause => aliasReport text cause
  | .import _ cause => importReport text cause
end

/-- `parse_schema_diagnostic`, compile.rs:34-42: the place and the message of the diagnostic. -/
def schemaReport (text : Text) : SchemaCause → Text × String
  | .parser pos => (pos, parserMessage text pos)
  | .comment e => commentReport e
  | .definition e => definitionReport text e

/-- Where the diagnostic of a text that is no schema is, and its message. -/
def failure (std : Std) (text : Text) : Text × String := match parseSchema std text with
  | .ok _ => ([], "")
  | .error e => schemaReport text e

end Mabo.Failing
