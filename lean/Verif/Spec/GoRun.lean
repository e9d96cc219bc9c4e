import Verif.Go.Syntax
/-!
What the statements and expressions of `Go/Syntax.lean` do when they are run: a definitional interpreter, from the Go specification
(https://go.dev/ref/spec). The package `buf` of the runtime library is not part of the repository; its functions, and methods that
are not declared in the same file, are a parameter. `none` stands for everything that is no result: a panic, a program that the
compiler rejects, or a loop of a method that takes more than `k` rounds.

Simplified: slices are values (nothing that is emitted writes to a slice), integers have no bounds, a function literal refers to
the variables as they are when it is made (nothing that is emitted changes them before it is called), and has no loops.
-/
namespace Mabo.Spec.GoRun
open Mabo.Go
open Mabo.Parse (Text)

/-- Go values. A map is given by its entries; which order they have means nothing, so that it is always the same. -/
inductive Val where
  | nil
  | bool (b : Bool)
  | num (i : Int)
  | text (s : Text)
  | bytes (bs : List UInt8)
  | seq (xs : List Val)
  | map (xs : List (Val × Val))
  | ptr (v : Val)
  /-- A struct with this type name and these fields. -/
  | obj (t : Text) (f : Text → Val)
  /-- A value of one of the types `NonZero..` of the runtime library. -/
  | nonZero (v : Val)

/-- An argument of a function: a value or a function. -/
inductive Arg where
  | val (v : Val)
  | fn (f : List Val → Option (List Val))

/-- What is declared elsewhere: the variables and functions of the package `buf`, methods, the initial values of types. -/
structure Runtime where
  const : Text → Option Val
  call : Text → List GTy → List Arg → Option (List Val)
  method : Text → Val → List Val → Option (List Val)
  zero : GTy → Val

/-- The variables, the innermost first. -/
abbrev Env := List (Text × Val)

/-- The value of a variable. -/
def lookup : Env → Text → Option Val
  | [], _ => none
  | (y, v) :: Γ, x => if x = y then some v else lookup Γ x

/-- Assigns to the innermost variable of that name. -/
def update : Env → Text → Val → Env
  | [], _, _ => []
  | (y, v) :: Γ, x, u => if x = y then (y, u) :: Γ else (y, v) :: update Γ x u

/-- The variables that are left behind a block that was entered with `n` variables. -/
def leave (n : Nat) (Γ : Env) : Env := Γ.drop (Γ.length - n)

/-- What an expression stands for. -/
inductive Res where
  | vals (vs : List Val)
  | fn (f : List Val → Option (List Val))
  | package
  /-- Something of the package `buf`. -/
  | lib (x : Text) (ts : List GTy)
  /-- A field or a method of a value. -/
  | member (v : Val) (x : Text)
  | len

/-- The values. -/
def Res.values (ρ : Runtime) : Res → Option (List Val)
  | .vals vs => some vs
  | .lib x [] => (ρ.const x).map ([·])
  | .member (.obj _ f) x => some [f x]
  | _ => none

/-- The value, if it is one. -/
def Res.value (ρ : Runtime) (r : Res) : Option Val :=
  match r.values ρ with
  | some [v] => some v
  | _ => none

/-- As an argument. -/
def Res.arg (ρ : Runtime) : Res → Option Arg
  | .fn f => some (.fn f)
  | r => (r.value ρ).map .val

/-- Arguments that are values. -/
def argVals : List Arg → Option (List Val)
  | [] => some []
  | .val v :: as => (argVals as).map (v :: ·)
  | .fn _ :: _ => none

/-- "Length and capacity". -/
def lengthOf : List Val → Option (List Val)
  | [.bytes bs] => some [.num bs.length]
  | [.nil] => some [.num 0]
  | _ => none

/-- "Calls". -/
def Res.apply (ρ : Runtime) (args : List Arg) : Res → Option (List Val)
  | .lib x ts => ρ.call x ts args
  | .member v m => (argVals args).bind (ρ.method m v)
  | .fn f => (argVals args).bind f
  | .len => (argVals args).bind lengthOf
  | _ => none

/-- "Comparison operators", as far as they are used. -/
def same : Val → Val → Option Bool
  | .nil, .nil => some true
  | .nil, _ => some false
  | _, .nil => some false
  | .num a, .num b => some (a == b)
  | .bool a, .bool b => some (a == b)
  | _, _ => none

/-- A name: a variable, or a predeclared name. -/
def name (Γ : Env) (x : Text) : Option Res :=
  match lookup Γ x with
  | some v => some (.vals [v])
  | none =>
    if x = "nil".toList then some (.vals [.nil])
    else if x = "true".toList then some (.vals [.bool true])
    else if x = "false".toList then some (.vals [.bool false])
    else if x = "len".toList then some .len
    else if x = "buf".toList then some .package
    else none

/-- A truth value. -/
def Val.isBool : Val → Option Bool
  | .bool b => some b
  | _ => none

/-- `>`. -/
def greater : Val → Val → Option Bool
  | .num a, .num b => some (decide (b < a))
  | _, _ => none

/-- What a statement does: it goes on, leaves a loop or `switch`, or returns. -/
inductive Out where
  | next (Γ : Env)
  | brk (Γ : Env)
  | ret (vs : List Val) (Γ : Env)

/-- Behind a block. -/
def Out.leave (n : Nat) : Out → Out
  | .next Γ => .next (GoRun.leave n Γ)
  | .brk Γ => .brk (GoRun.leave n Γ)
  | .ret vs Γ => .ret vs (GoRun.leave n Γ)

/-- What a function returns. -/
def Out.result : Out → Option (List Val)
  | .ret vs _ => some vs
  | _ => none

/-- A `break` ends a `switch`. -/
def Out.caught : Out → Out
  | .brk Γ => .next Γ
  | o => o

/-- "Assignment statements": to a variable or a field of one. -/
def store (Γ : Env) (v : Val) : Expr → Option Env
  | .id x => if (lookup Γ x).isSome then some (update Γ x v) else none
  | .sel (.id x) f =>
    match lookup Γ x with
    | some (.obj t g) => some (update Γ x (.obj t fun y => if y = f then v else g y))
    | _ => none
  | _ => none

/-- Several values. -/
def define (Γ : Env) (xs : List Text) (vs : List Val) : Option Env :=
  if xs.length = vs.length then some (xs.zip vs ++ Γ) else none

/-- "For statements": at most `k` rounds. -/
def iterate (cond : Env → Option Bool) (body : Env → Option Out) : Nat → Env → Option Out
  | 0, _ => none
  | k + 1, Γ =>
    match cond Γ with
    | some true =>
      match body Γ with
      | some (.next Δ) => iterate cond body k Δ
      | some (.brk Δ) => some (.next Δ)
      | o => o
    | some false => some (.next Γ)
    | none => none

/-- Two numbers. -/
def plus : Val → Val → Option Val
  | .num a, .num b => some (.num (a + b))
  | _, _ => none

/-- The name of the type of a struct. -/
def typeName : GTy → Option Text
  | .name x _ | .qual _ x _ => some x
  | _ => none

mutual
/-- Expressions. -/
def eval (ρ : Runtime) (Γ : Env) : Expr → Option Res
  | .id x => name Γ x
  | .sel e x =>
    match eval ρ Γ e with
    | some .package => some (.lib x [])
    | some r => (r.value ρ).map (.member · x)
    | none => none
  | .nat i => some (.vals [.num i])
  | .str s => some (.vals [.text s])
  | .addr e => ((eval ρ Γ e).bind (·.value ρ)).map fun v => .vals [.ptr v]
  | .not e => (((eval ρ Γ e).bind (·.value ρ)).bind Val.isBool).map fun b => .vals [.bool (!b)]
  | .gt a b =>
    ((eval ρ Γ a).bind (·.value ρ)).bind fun x => ((eval ρ Γ b).bind (·.value ρ)).bind fun y =>
      (greater x y).map fun c => .vals [.bool c]
  | .ne a b =>
    ((eval ρ Γ a).bind (·.value ρ)).bind fun x => ((eval ρ Γ b).bind (·.value ρ)).bind fun y =>
      (same x y).map fun c => .vals [.bool (!c)]
  | .inst e ts =>
    match eval ρ Γ e with
    | some (.lib x _) => some (.lib x ts)
    | _ => none
  | .call f args =>
    (eval ρ Γ f).bind fun r => (evalArgs ρ Γ args).bind fun vs => (r.apply ρ vs).map .vals
  | .callLines f as bs =>
    (eval ρ Γ f).bind fun r => (evalArgs ρ Γ as).bind fun us => (evalArgs ρ Γ bs).bind fun vs =>
      (r.apply ρ (us ++ vs)).map .vals
  | .func _ ps _ body =>
    some (.fn fun vs => (define Γ (ps.map (·.1)) vs).bind fun Δ => (runAll ρ 0 Δ body).bind Out.result)
  | .lit t es =>
    (typeName t).bind fun x => (evalEntries ρ Γ es).map fun g => .vals [.obj x g]
  | .entry _ _ _ => none
  | .line e => eval ρ Γ e
/-- The entries of a composite literal. -/
def evalEntries (ρ : Runtime) (Γ : Env) : List Expr → Option (Text → Val)
  | [] => some fun _ => .nil
  | .entry x _ e :: es =>
    ((eval ρ Γ e).bind (·.value ρ)).bind fun v => (evalEntries ρ Γ es).map fun g y => if y = x then v else g y
  | _ :: _ => none
/-- Arguments. -/
def evalArgs (ρ : Runtime) (Γ : Env) : List Expr → Option (List Arg)
  | [] => some []
  | e :: es => ((eval ρ Γ e).bind (·.arg ρ)).bind fun a => (evalArgs ρ Γ es).map (a :: ·)
/-- The values of a `return`: those of one call, or one of each expression. -/
def evalList (ρ : Runtime) (Γ : Env) : List Expr → Option (List Val)
  | [] => some []
  | e :: es => ((eval ρ Γ e).bind (·.values ρ)).bind fun vs => (evalList ρ Γ es).map (vs ++ ·)
/-- Statements. -/
def run (ρ : Runtime) (k : Nat) (Γ : Env) : Stmt → Option Out
  | .define xs e => ((eval ρ Γ e).bind (·.values ρ)).bind fun vs => (define Γ xs vs).map .next
  | .assign x e => ((eval ρ Γ e).bind (·.value ρ)).bind fun v => (store Γ v x).map .next
  | .addAssign x e =>
    ((eval ρ Γ x).bind (·.value ρ)).bind fun a => ((eval ρ Γ e).bind (·.value ρ)).bind fun b =>
      (plus a b).bind fun v => (store Γ v x).map .next
  | .varDecl x t => some (.next ((x, ρ.zero t) :: Γ))
  | .ret es => (evalList ρ Γ es).map (.ret · Γ)
  | .ifThen c body =>
    (((eval ρ Γ c).bind (·.value ρ)).bind Val.isBool).bind fun b =>
      if b then (runAll ρ k Γ body).map (Out.leave Γ.length) else some (.next Γ)
  | .loop c body =>
    iterate (fun Δ => ((eval ρ Δ c).bind (·.value ρ)).bind Val.isBool)
      (fun Δ => (runAll ρ k Δ body).map (Out.leave Δ.length)) k Γ
  | .switch e cases =>
    ((eval ρ Γ e).bind (·.value ρ)).bind fun v => (runCases ρ k Γ v cases).map Out.caught
  | .case _ _ => none
  | .brk => some (.brk Γ)
  | .blank => some (.next Γ)
/-- One after the other. -/
def runAll (ρ : Runtime) (k : Nat) (Γ : Env) : List Stmt → Option Out
  | [] => some (.next Γ)
  | s :: ss =>
    match run ρ k Γ s with
    | some (.next Δ) => runAll ρ k Δ ss
    | o => o
/-- "Switch statements": the first clause with this value. -/
def runCases (ρ : Runtime) (k : Nat) (Γ : Env) (v : Val) : List Stmt → Option Out
  | [] => some (.next Γ)
  | .case c body :: cs =>
    (((eval ρ Γ c).bind (·.value ρ)).bind (same v)).bind fun b =>
      if b then (runAll ρ k Γ body).map (Out.leave Γ.length) else runCases ρ k Γ v cs
  | _ :: _ => none
end

/-- A method with these parameters and this body is called for the receiver: what it returns, and the receiver behind it (the
receiver is a pointer). -/
def invoke (ρ : Runtime) (k : Nat) (params : List (Text × GTy)) (body : List Stmt) (recv : Val) (args : List Val) :
    Option (List Val × Val) :=
  (define [("v".toList, recv)] (params.map (·.1)) args).bind fun Γ =>
    match runAll ρ k Γ body with
    | some (.ret vs Δ) => (lookup (leave 1 Δ) "v".toList).map (vs, ·)
    | _ => none

/-- The call returns this. -/
def Returns (ρ : Runtime) (params : List (Text × GTy)) (body : List Stmt) (recv : Val) (args : List Val) (vs : List Val)
    (recv' : Val) : Prop := ∃ k, invoke ρ k params body recv args = some (vs, recv')

end Mabo.Spec.GoRun
