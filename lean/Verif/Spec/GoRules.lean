import Verif.Go.Syntax
/-!
Rules of the Go specification (https://go.dev/ref/spec) that a compiler has to enforce, for the part of the language in
`Go/Syntax.lean`. `problems f` lists the violations in the file of a package. A violation is found only if it does not depend on
imported packages, so that a compiler rejects the file no matter what these contain; the converse does not hold, since types are
checked only as far as stated here.
-/
namespace Mabo.Spec.GoRules
open Mabo.Go
open Mabo.Parse (Text)

/-- "Keywords". -/
def keywords : List Text :=
  ["break", "case", "chan", "const", "continue", "default", "defer", "else", "fallthrough", "for", "func", "go", "goto", "if",
    "import", "interface", "map", "package", "range", "return", "select", "struct", "switch", "type", "var"].map String.toList

/-- "Predeclared identifiers": types. -/
def predeclaredTypes : List Text :=
  ["any", "bool", "byte", "comparable", "complex64", "complex128", "error", "float32", "float64", "int", "int8", "int16", "int32",
    "int64", "rune", "string", "uint", "uint8", "uint16", "uint32", "uint64", "uintptr"].map String.toList

/-- "Predeclared identifiers": constants, zero value and functions. -/
def predeclaredValues : List Text :=
  ["true", "false", "iota", "nil", "append", "cap", "clear", "close", "complex", "copy", "delete", "imag", "len", "make", "max",
    "min", "new", "panic", "print", "println", "real", "recover"].map String.toList

/-- Violations. -/
inductive Problem where
  /-- "Import declarations": a package is imported and not used. -/
  | unusedImport (package : Text)
  /-- "Declarations and scope": a name that is not declared. -/
  | undefined (name : Text)
  /-- "Types": a name that is not one of a type. -/
  | notType (name : Text)
  /-- "Declarations and scope": a name is declared twice in a block, or a struct has two fields or methods or a field and a
  method of one name ("Struct types", "Method declarations"). -/
  | redeclared
  /-- "Keywords": a keyword is not a name. -/
  | keyword (name : Text)
  /-- "Selectors": the type has no such field or method. -/
  | noMember (name : Text)
  /-- "Calls": a function is called with the wrong number of arguments. -/
  | argumentCount
  /-- "Return statements": the number of values is not that of the results. -/
  | resultCount
  /-- "Map types": keys have to be comparable. -/
  | mapKey
  /-- "Constant declarations", "Variable declarations", "Assignability": a value is missing or is not of the type. -/
  | value
deriving DecidableEq

/-- The violation if the condition does not hold. -/
def demand (c : Bool) (p : Problem) : List Problem := if c then [] else [p]

/-- Names that are declared together: different from each other, and no keywords. -/
def namesOk (xs : List Text) : List Problem :=
  demand (decide xs.Nodup) .redeclared ++ xs.flatMap fun x => demand (!keywords.contains x) (.keyword x)

/-- What a name stands for in a scope. -/
inductive Meaning where
  | package
  | type
  /-- A type parameter with the constraint `any`. -/
  | typeParameter
  | variable (t : GTy)
  /-- A variable of another type, a constant or a function. -/
  | other

/-- The names in scope, the innermost first. -/
abbrev Scope := List (Text × Meaning)

/-- What a name stands for. -/
def meaning (Γ : Scope) (x : Text) : Option Meaning := (Γ.find? fun b => b.1 = x).map (·.2)

/-- A field or a method of a type: the number of results of a method. -/
structure Member where
  name : Text
  results : Option Nat

/-- The type declaration of this name. -/
def findType (ds : List Decl) (x : Text) : Option TypeBody :=
  ds.findSome? fun d =>
    match d with
    | .type _ y _ b => if x = y then some b else none
    | _ => none

/-- The methods that are declared for a type. -/
def methodsOf (ds : List Decl) (x : Text) : List Member :=
  ds.filterMap fun d =>
    match d with
    | .method _ y _ m _ rs _ => if x = y then some ⟨m, some rs.length⟩ else none
    | _ => none

/-- "Underlying types": what a declared type stands for. Not known if that is a type of another package. -/
def underlying (ds : List Decl) : Nat → Text → Option TypeBody
  | 0, _ => none
  | k + 1, x =>
    match findType ds x with
    | some (.type (.name y _)) => if y ∈ predeclaredTypes then some (.type (.name y [])) else underlying ds k y
    | some (.type (.qual _ _ _)) => none
    | b => b

/-- "Method sets", "Selectors": the fields and methods of a value of this type or of a pointer to it, if they are known. -/
def members (ds : List Decl) (Γ : Scope) : GTy → Option (List Member)
  | .name x _ =>
    match meaning Γ x with
    | some .typeParameter => some []
    | _ =>
      match underlying ds ds.length x with
      | some (.struct fs) => some (fs.map (⟨·.name, none⟩) ++ methodsOf ds x)
      | some (.interface m) => some (⟨m, some 0⟩ :: methodsOf ds x)
      | some (.type _) => some (methodsOf ds x)
      | none => none
  | _ => none

/-- The members of a variable. -/
def membersOf (ds : List Decl) (Γ : Scope) (x : Text) : Option (List Member) :=
  match meaning Γ x with
  | some (.variable t) => members ds Γ t
  | _ => none

/-- "Comparison operators": slices and maps, and arrays of them, are not comparable. -/
def comparable : GTy → Bool
  | .slice _ | .map _ _ => false
  | .array _ t => comparable t
  | _ => true

/-- The name of an imported package. -/
def isPackage : Option Meaning → Bool
  | some .package => true
  | _ => false

/-- A name of a type. -/
def typeNameProblems (m : Option Meaning) (x : Text) : List Problem :=
  match m with
  | some .type | some .typeParameter => []
  | some _ => [.notType x]
  | none => [.undefined x]

mutual
/-- A type: all names are those of types, packages are imported and map keys are comparable. -/
def tyProblems (Γ : Scope) : GTy → List Problem
  | .name x ts => typeNameProblems (meaning Γ x) x ++ tysProblems Γ ts
  | .qual p _ ts => demand (isPackage (meaning Γ p)) (.undefined p) ++ tysProblems Γ ts
  | .ptr t | .slice t | .array _ t => tyProblems Γ t
  | .map k v => demand (comparable k) .mapKey ++ tyProblems Γ k ++ tyProblems Γ v
  | .unit => []
/-- On a list. -/
def tysProblems (Γ : Scope) : List GTy → List Problem
  | [] => []
  | t :: ts => tyProblems Γ t ++ tysProblems Γ ts
end

/-- The scope of the parameters. -/
def bind (ps : List (Text × GTy)) (Γ : Scope) : Scope := ps.map (fun p => (p.1, .variable p.2)) ++ Γ

/-- Names whose types are not known here. -/
def bindNames (xs : List Text) (Γ : Scope) : Scope := xs.map (·, .other) ++ Γ

/-- Type parameters. -/
def bindTypes (xs : List Text) (Γ : Scope) : Scope := xs.map (·, .typeParameter) ++ Γ

/-- The scope behind a statement. -/
def behind (Γ : Scope) : Stmt → Scope
  | .define xs _ => bindNames xs Γ
  | .varDecl x t => (x, .variable t) :: Γ
  | _ => Γ

/-- A selector: if the variable is one whose members are known, the name is one of them. -/
def selProblems (ds : List Decl) (Γ : Scope) (x : Text) : Expr → List Problem
  | .id y =>
    match membersOf ds Γ y with
    | some ms => demand (ms.any fun m => m.name == x) (.noMember x)
    | none => []
  | _ => []

/-- A call of a function literal has as many arguments as it has parameters. -/
def callProblems (f : Expr) (args : Nat) : List Problem :=
  match f with
  | .func _ ps _ _ => demand (ps.length == args) .argumentCount
  | _ => []

/-- The number of values of an expression, if it is known. -/
def valueCount (ds : List Decl) (Γ : Scope) : Expr → Option Nat
  | .call (.func _ _ rs _) _ => some rs.length
  | .call (.sel (.id y) m) _ =>
    match membersOf ds Γ y with
    | some ms => (ms.find? fun b => b.name = m).bind (·.results)
    | none => none
  | .line e => valueCount ds Γ e
  | .call _ _ | .callLines _ _ _ => none
  | _ => some 1

/-- A `return`: as many values as results; the values can also be those of one call. -/
def returnProblems (ds : List Decl) (Γ : Scope) (results : Nat) (es : List Expr) : List Problem :=
  match es with
  | [e] => demand (match valueCount ds Γ e with | some k => k == results | none => true) .resultCount
  | es => demand (es.length == results) .resultCount

mutual
/-- An expression. -/
def exprProblems (ds : List Decl) (Γ : Scope) : Expr → List Problem
  | .id x => demand (meaning Γ x).isSome (.undefined x)
  | .sel e x => exprProblems ds Γ e ++ selProblems ds Γ x e
  | .nat _ | .str _ => []
  | .addr e | .not e | .entry _ _ e | .line e => exprProblems ds Γ e
  | .gt a b | .ne a b => exprProblems ds Γ a ++ exprProblems ds Γ b
  | .inst e ts => exprProblems ds Γ e ++ tysProblems Γ ts
  | .call f args => exprProblems ds Γ f ++ exprsProblems ds Γ args ++ callProblems f args.length
  | .callLines f as bs =>
    exprProblems ds Γ f ++ exprsProblems ds Γ as ++ exprsProblems ds Γ bs ++ callProblems f (as.length + bs.length)
  | .func _ ps rs body =>
    namesOk (ps.map (·.1)) ++ tysProblems Γ (ps.map (·.2)) ++ tysProblems Γ rs ++ stmtsProblems ds (bind ps Γ) rs.length body
  | .lit t es => tyProblems Γ t ++ exprsProblems ds Γ es
/-- On a list. -/
def exprsProblems (ds : List Decl) (Γ : Scope) : List Expr → List Problem
  | [] => []
  | e :: es => exprProblems ds Γ e ++ exprsProblems ds Γ es
/-- A statement of a function with so many results. -/
def stmtProblems (ds : List Decl) (Γ : Scope) (results : Nat) : Stmt → List Problem
  | .define _ e => exprProblems ds Γ e
  | .assign x e | .addAssign x e => exprProblems ds Γ x ++ exprProblems ds Γ e
  | .varDecl _ t => tyProblems Γ t
  | .ret es => exprsProblems ds Γ es ++ returnProblems ds Γ results es
  | .ifThen c body | .loop c body | .switch c body | .case c body => exprProblems ds Γ c ++ stmtsProblems ds Γ results body
  | .brk | .blank => []
/-- Statements: a variable is in scope behind its declaration. -/
def stmtsProblems (ds : List Decl) (Γ : Scope) (results : Nat) : List Stmt → List Problem
  | [] => []
  | s :: ss => stmtProblems ds Γ results s ++ stmtsProblems ds (behind Γ s) results ss
end

/-! ### Declarations -/

/-- The names that a declaration adds to the package. -/
def declared : Decl → Scope
  | .type _ x _ _ => [(x, .type)]
  | .func x _ _ _ _ | .const _ _ x _ _ => [(x, .other)]
  | _ => []

/-- The range of an integer type. -/
def rangeOf (x : Text) : Option (Int × Int) :=
  [("uint8", ((0 : Int), (2 ^ 8 - 1 : Int))), ("uint16", (0, 2 ^ 16 - 1)), ("uint32", (0, 2 ^ 32 - 1)), ("uint64", (0, 2 ^ 64 - 1)),
    ("int8", (-2 ^ 7, 2 ^ 7 - 1)), ("int16", (-2 ^ 15, 2 ^ 15 - 1)), ("int32", (-2 ^ 31, 2 ^ 31 - 1)),
    ("int64", (-2 ^ 63, 2 ^ 63 - 1))].findSome? fun r => if r.1.toList = x then some r.2 else none

/-- The value can be written as one of the type. Floating point literals are not checked against integer types. -/
def valueOk : GTy → Ast.Literal → Bool
  | .name x _, .bool _ => x == "bool".toList
  | .name x _, .int i =>
    match rangeOf x with
    | some (lo, hi) => lo ≤ i && i ≤ hi
    | none => x == "float32".toList || x == "float64".toList
  | .name x _, .float _ => x != "bool".toList && x != "string".toList
  | .name x _, .string _ => x == "string".toList
  | .slice _, .bytes (_ :: _) => true
  | _, _ => false

/-- The violations in a declaration; `Γ` is the scope of the package. -/
def declProblems (ds : List Decl) (Γ : Scope) : Decl → List Problem
  | .type _ x ps (.struct fs) =>
    namesOk ps ++ namesOk (fs.map (·.name) ++ (methodsOf ds x).map (·.name)) ++ tysProblems (bindTypes ps Γ) (fs.map (·.ty))
  | .type _ _ ps (.interface m) => namesOk ps ++ namesOk [m]
  | .type _ _ ps (.type t) => namesOk ps ++ tyProblems (bindTypes ps Γ) t
  | .func _ ts ps r body =>
    namesOk ts ++ namesOk (ps.map (·.1)) ++ tysProblems (bindTypes ts Γ) (ps.map (·.2)) ++ tyProblems (bindTypes ts Γ) r ++
      stmtsProblems ds (bind ps (bindTypes ts Γ)) 1 body
  | .method _ recv ts _ ps rs body =>
    namesOk ts ++ namesOk ("v".toList :: ps.map (·.1)) ++ tyProblems Γ (.name recv []) ++
      tysProblems (bindTypes ts Γ) (ps.map (·.2)) ++ tysProblems (bindTypes ts Γ) rs ++
      stmtsProblems ds (bind (("v".toList, .name recv []) :: ps) (bindTypes ts Γ)) rs.length body
  | .implements i recv ts => tyProblems Γ i ++ tyProblems Γ (.name recv (ts.map (.name · [])))
  | .const _ _ _ t v => tyProblems Γ t ++ demand (valueOk t v) .value
  | .blank => []

/-! ### Uses of packages -/

mutual
/-- The type refers to the package. -/
def tyUses (p : Text) : GTy → Bool
  | .name _ ts => tysUse p ts
  | .qual q _ ts => p == q || tysUse p ts
  | .ptr t | .slice t | .array _ t => tyUses p t
  | .map k v => tyUses p k || tyUses p v
  | .unit => false
/-- On a list. -/
def tysUse (p : Text) : List GTy → Bool
  | [] => false
  | t :: ts => tyUses p t || tysUse p ts
end

/-- The expression is this name. -/
def isName (p : Text) : Expr → Bool
  | .id x => p == x
  | _ => false

mutual
/-- The expression refers to the package. -/
def exprUses (p : Text) : Expr → Bool
  | .sel e _ => isName p e || exprUses p e
  | .addr e | .not e | .entry _ _ e | .line e => exprUses p e
  | .id _ | .nat _ | .str _ => false
  | .gt a b | .ne a b => exprUses p a || exprUses p b
  | .inst e ts => exprUses p e || tysUse p ts
  | .call f args => exprUses p f || exprsUse p args
  | .callLines f as bs => exprUses p f || exprsUse p as || exprsUse p bs
  | .func _ ps rs body => tysUse p (ps.map (·.2)) || tysUse p rs || stmtsUse p body
  | .lit t es => tyUses p t || exprsUse p es
/-- On a list. -/
def exprsUse (p : Text) : List Expr → Bool
  | [] => false
  | e :: es => exprUses p e || exprsUse p es
/-- On statements. -/
def stmtUses (p : Text) : Stmt → Bool
  | .define _ e => exprUses p e
  | .assign x e | .addAssign x e => exprUses p x || exprUses p e
  | .varDecl _ t => tyUses p t
  | .ret es => exprsUse p es
  | .ifThen c body | .loop c body | .switch c body | .case c body => exprUses p c || stmtsUse p body
  | .brk | .blank => false
/-- On a list. -/
def stmtsUse (p : Text) : List Stmt → Bool
  | [] => false
  | s :: ss => stmtUses p s || stmtsUse p ss
end

/-- On declarations. -/
def declUses (p : Text) : Decl → Bool
  | .type _ _ _ (.struct fs) => tysUse p (fs.map (·.ty))
  | .type _ _ _ (.interface _) => false
  | .type _ _ _ (.type t) => tyUses p t
  | .func _ _ ps r body => tysUse p (ps.map (·.2)) || tyUses p r || stmtsUse p body
  | .method _ _ _ _ ps rs body => tysUse p (ps.map (·.2)) || tysUse p rs || stmtsUse p body
  | .implements i _ _ => tyUses p i
  | .const _ _ _ t _ => tyUses p t
  | .blank => false

/-- The names that the file imports and declares. -/
def fileNames (f : File) : List Text := f.imports.map (·.1) ++ (f.decls.flatMap declared).map (·.1)

/-- The scope of the file. -/
def fileScope (f : File) : Scope :=
  f.imports.map (fun i => (i.1, .package)) ++ f.decls.flatMap declared ++ predeclaredTypes.map (·, .type) ++
    predeclaredValues.map (·, .other)

/-- The violations in a file that is the only one of its package. -/
def problems (f : File) : List Problem :=
  namesOk [f.package] ++ namesOk (fileNames f) ++
    f.imports.flatMap (fun i => demand (f.decls.any (declUses i.1)) (.unusedImport i.1)) ++
    f.decls.flatMap (declProblems f.decls (fileScope f))

end Mabo.Spec.GoRules
