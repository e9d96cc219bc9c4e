import Verif.Go.Render
/-!
The part of Go's syntax that the Go generator (`crates/mabo-go/src/{definition,encode,decode,size}.rs`) writes, and how it is
written. `Go/Tree.lean` builds the trees, and `Go/TreeText.lean` proves that their text is the text of the generator.

Some constructors differ in their layout only, since the generator does not lay out all code in the same way.
-/
namespace Mabo.Go
open Mabo.Parse (Text Std printNat)

/-- A Go type. -/
inductive GTy where
  /-- A name, with type arguments if there are any. -/
  | name (x : Text) (args : List GTy)
  /-- A name of a package, with type arguments if there are any. -/
  | qual (pkg x : Text) (args : List GTy)
  | ptr (t : GTy)
  | slice (t : GTy)
  | array (n : Nat) (t : GTy)
  | map (k v : GTy)
  /-- `struct{}`. -/
  | unit

mutual
/-- Expressions. -/
inductive Expr where
  | id (x : Text)
  | sel (e : Expr) (x : Text)
  | nat (n : Nat)
  | str (s : Text)
  | addr (e : Expr)
  | not (e : Expr)
  | gt (a b : Expr)
  | ne (a b : Expr)
  /-- `e[T, U]`. -/
  | inst (e : Expr) (ts : List GTy)
  /-- `f(a, b)`. -/
  | call (f : Expr) (args : List Expr)
  /-- The same, with the arguments `as` on one line and then a line for each of the arguments `bs`. -/
  | callLines (f : Expr) (as bs : List Expr)
  /-- A function; `space` is a blank in front of the parameters. -/
  | func (space : Bool) (params : List (Text × GTy)) (results : List GTy) (body : List Stmt)
  /-- `T{ key: value, .. }` on several lines. -/
  | lit (t : GTy) (entries : List Expr)
  /-- An entry of it, with more blanks in front of the value. -/
  | entry (key : Text) (pad : Nat) (e : Expr)
  /-- The expression, followed by a line break. -/
  | line (e : Expr)
/-- Statements. -/
inductive Stmt where
  | define (xs : List Text) (e : Expr)
  | assign (x e : Expr)
  | addAssign (x e : Expr)
  | varDecl (x : Text) (t : GTy)
  | ret (es : List Expr)
  | ifThen (c : Expr) (body : List Stmt)
  | loop (c : Expr) (body : List Stmt)
  | switch (e : Expr) (cases : List Stmt)
  /-- A clause of a `switch`. -/
  | case (e : Expr) (body : List Stmt)
  | brk
  /-- An empty line. -/
  | blank
end

/-- The text of pieces with a separator in between. -/
def sepText (s : Text) : List Text → Text
  | [] => []
  | [x] => x
  | x :: xs => x ++ s ++ sepText s xs

/-- The characters of a string. -/
def chars (x : String) : Text := x.toList

/-- `, `. -/
def comma : Text := [',', ' ']

/-- Nothing, or the pieces in brackets. -/
def argText : List Text → Text
  | [] => []
  | x :: xs => ['['] ++ sepText comma (x :: xs) ++ [']']

/-- The lines of a literal in braces. -/
def braces (ind : Nat) : Text → Text
  | [] => ['{', '}']
  | c :: cs => ['{', '\n'] ++ (c :: cs) ++ tabs ind ++ ['}']

mutual
/-- The text of a type. -/
def GTy.text : GTy → Text
  | .name x ts => x ++ argText (GTy.texts ts)
  | .qual p x ts => p ++ ['.'] ++ x ++ argText (GTy.texts ts)
  | .ptr t => '*' :: t.text
  | .slice t => ['[', ']'] ++ t.text
  | .array n t => ['['] ++ printNat n ++ [']'] ++ t.text
  | .map k v => chars "map[" ++ k.text ++ [']'] ++ v.text
  | .unit => chars "struct{}"
/-- On a list. -/
def GTy.texts : List GTy → List Text
  | [] => []
  | t :: ts => t.text :: GTy.texts ts
end

/-- Parameters: names and types. -/
def paramText (ps : List (Text × GTy)) : Text := sepText comma (ps.map fun p => p.1 ++ [' '] ++ p.2.text)

/-- Results, with a blank in front: nothing, one type, or several in parentheses. -/
def resultText : List GTy → Text
  | [] => []
  | [t] => ' ' :: t.text
  | ts => [' ', '('] ++ sepText comma (GTy.texts ts) ++ [')']

mutual
/-- The text of an expression that starts on a line with `ind` tabs. -/
def Expr.text (ind : Nat) : Expr → Text
  | .id x => x
  | .sel e x => e.text ind ++ ['.'] ++ x
  | .nat n => printNat n
  | .str s => ['"'] ++ s ++ ['"']
  | .addr e => '&' :: e.text ind
  | .not e => '!' :: e.text ind
  | .gt a b => a.text ind ++ chars " > " ++ b.text ind
  | .ne a b => a.text ind ++ chars " != " ++ b.text ind
  | .inst e ts => e.text ind ++ ['['] ++ sepText comma (GTy.texts ts) ++ [']']
  | .call f args => f.text ind ++ ['('] ++ sepText comma (Expr.texts ind args) ++ [')']
  | .callLines f as bs =>
    f.text ind ++ ['(', '\n'] ++ tabs (ind + 1) ++ sepText comma (Expr.texts (ind + 1) as) ++ [',', '\n'] ++
      Expr.lines (ind + 1) bs ++ tabs ind ++ [')']
  | .func space params results body =>
    chars "func" ++ (if space then [' '] else []) ++ ['('] ++ paramText params ++ [')'] ++ resultText results ++
      [' ', '{', '\n'] ++ Stmt.texts (ind + 1) body ++ tabs ind ++ ['}']
  | .lit t es => t.text ++ braces ind (Expr.lines (ind + 1) es)
  | .entry key pad e => key ++ [':'] ++ List.replicate (pad + 1) ' ' ++ e.text ind
  | .line e => e.text ind ++ ['\n']
/-- On a list. -/
def Expr.texts (ind : Nat) : List Expr → List Text
  | [] => []
  | e :: es => e.text ind :: Expr.texts ind es
/-- A line for each expression, with a comma at its end. -/
def Expr.lines (ind : Nat) : List Expr → Text
  | [] => []
  | e :: es => tabs ind ++ e.text ind ++ [',', '\n'] ++ Expr.lines ind es
/-- The lines of a statement. -/
def Stmt.text (ind : Nat) : Stmt → Text
  | .define xs e => tabs ind ++ sepText comma xs ++ chars " := " ++ e.text ind ++ ['\n']
  | .assign x e => tabs ind ++ x.text ind ++ chars " = " ++ e.text ind ++ ['\n']
  | .addAssign x e => tabs ind ++ x.text ind ++ chars " += " ++ e.text ind ++ ['\n']
  | .varDecl x t => tabs ind ++ chars "var " ++ x ++ [' '] ++ t.text ++ ['\n']
  | .ret es => tabs ind ++ chars "return " ++ sepText comma (Expr.texts ind es) ++ ['\n']
  | .ifThen c body =>
    tabs ind ++ chars "if " ++ c.text ind ++ [' ', '{', '\n'] ++ Stmt.texts (ind + 1) body ++ tabs ind ++ ['}', '\n']
  | .loop c body =>
    tabs ind ++ chars "for " ++ c.text ind ++ [' ', '{', '\n'] ++ Stmt.texts (ind + 1) body ++ tabs ind ++ ['}', '\n']
  | .switch e cases =>
    tabs ind ++ chars "switch " ++ e.text ind ++ [' ', '{', '\n'] ++ Stmt.texts (ind + 1) cases ++ tabs ind ++ ['}', '\n']
  | .case e body => tabs ind ++ chars "case " ++ e.text ind ++ [':', '\n'] ++ Stmt.texts (ind + 1) body
  | .brk => tabs ind ++ chars "break\n"
  | .blank => ['\n']
/-- On a list. -/
def Stmt.texts (ind : Nat) : List Stmt → Text
  | [] => []
  | s :: ss => s.text ind ++ Stmt.texts ind ss
end

/-- A field of a struct: comment, name and type. -/
structure GField where
  comment : List String
  name : Text
  ty : GTy

/-- What a type declaration declares. -/
inductive TypeBody where
  | struct (fields : List GField)
  /-- An interface with one method without parameters and results. -/
  | interface (method : Text)
  | type (t : GTy)

/-- Declarations. -/
inductive Decl where
  | type (comment : List String) (name : Text) (params : List Text) (body : TypeBody)
  /-- A function, with a line for each parameter. -/
  | func (name : Text) (tparams : List Text) (params : List (Text × GTy)) (result : GTy) (body : List Stmt)
  /-- A method of the type `recv[targs]`, or of pointers to it. -/
  | method (isPtr : Bool) (recv : Text) (targs : List Text) (name : Text) (params : List (Text × GTy)) (results : List GTy)
      (body : List Stmt)
  /-- `var _ iface = (*recv[targs])(nil)`: the compiler has to check that the interface is implemented. -/
  | implements (iface : GTy) (recv : Text) (targs : List Text)
  /-- A constant or, with `isVar`, a variable. -/
  | const (comment : List String) (isVar : Bool) (name : Text) (ty : GTy) (value : Ast.Literal)
  | blank

/-- Comment lines. -/
def commentText (ind : Nat) (ls : List String) : Text := (ls.map fun x => tabs ind ++ chars "// " ++ x.toList ++ ['\n']).flatten

/-- Type parameters or their names, in brackets. -/
def tparamText (suffix : Text) : List Text → Text
  | [] => []
  | g :: gs => ['['] ++ sepText comma ((g :: gs).map (· ++ suffix)) ++ [']']

/-- The text of a type declaration behind the name. -/
def TypeBody.text : TypeBody → Text
  | .struct [] => chars "struct{}"
  | .struct (f :: fs) => chars "struct {\n" ++
      ((f :: fs).map fun f => commentText 1 f.comment ++ ['\t'] ++ f.name ++ [' '] ++ f.ty.text ++ ['\n']).flatten ++ ['}']
  | .interface m => chars "interface {\n\t " ++ m ++ chars "()\n}"
  | .type t => t.text

/-- The body of a function. -/
def bodyText : List Stmt → Text
  | [] => ['{', '}']
  | ss => ['{', '\n'] ++ Stmt.texts 1 ss ++ ['}']

/-- The lines of a declaration. -/
def Decl.text (std : Std) : Decl → Text
  | .type c x ps b => commentText 0 c ++ chars "type " ++ x ++ tparamText (chars " any") ps ++ [' '] ++ b.text ++ ['\n']
  | .func x ts ps r body =>
    chars "func " ++ x ++ tparamText (chars " any") ts ++ ['('] ++ (if ps.isEmpty then [] else ['\n']) ++
      (ps.map fun p => ['\t'] ++ p.1 ++ [' '] ++ p.2.text ++ [',', '\n']).flatten ++ [')', ' '] ++ r.text ++ [' '] ++
      bodyText body ++ ['\n']
  | .method isPtr recv ts x ps rs body =>
    chars "func (v " ++ (if isPtr then ['*'] else []) ++ recv ++ tparamText [] ts ++ [')', ' '] ++ x ++ ['('] ++ paramText ps ++
      [')'] ++ resultText rs ++ [' '] ++ bodyText body ++ ['\n']
  | .implements i recv ts => chars "var _ " ++ i.text ++ chars " = (*" ++ recv ++ tparamText [] ts ++ chars ")(nil)\n"
  | .const c isVar x t v =>
    commentText 0 c ++ (if isVar then chars "var " else chars "const ") ++ x ++ [' '] ++ t.text ++ chars " = " ++
      literal std v ++ ['\n']
  | .blank => ['\n']

/-- A source file, which is the only one of its package: comment, package, imported packages with their paths, declarations. -/
structure File where
  comment : List String
  package : Text
  imports : List (Text × Text)
  decls : List Decl

/-- The text of a file. -/
def File.text (std : Std) (f : File) : Text :=
  chars "// Code generated by mabo-go (v0.1.0). DO NOT EDIT.\n\n" ++ commentText 0 f.comment ++ chars "package " ++ f.package ++
    chars "\n\nimport (\n" ++ (f.imports.map fun i => ['\t'] ++ i.1 ++ [' ', '"'] ++ i.2 ++ ['"', '\n']).flatten ++
    chars ")\n\n" ++ (f.decls.map (Decl.text std)).flatten

end Mabo.Go
