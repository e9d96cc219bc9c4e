import Verif.Rust.Types
/-!
What Rust demands of type definitions, apart from the functions next to them: types have a finite size (E0072), type
parameters are used (E0392), and the traits that are derived for a type are there for the types of its fields (E0277,
E0369). Stated on the meaning of the written types, for any set of type definitions.
-/
namespace Mabo.Layout
open Mabo.Rust (Rt)

/-- Type definitions: the number of type parameters of a type and the types of all of its fields (of all variants). -/
abbrev Defs := List String → Option (Nat × List Rt)

mutual
/-- A type with the given types for the type parameters. -/
def subst (σ : List Rt) : Rt → Rt
  | .builtin n args => .builtin n (substs σ args)
  | .tuple ts => .tuple (substs σ ts)
  | .array t n => .array (subst σ t) n
  | .slice t => .slice (subst σ t)
  | .named abs args => .named abs (substs σ args)
  | .param i => σ.getD i (.param i)
/-- All of them. -/
def substs (σ : List Rt) : List Rt → List Rt
  | [] => []
  | t :: ts => subst σ t :: substs σ ts
end

/-! ### Finite size -/

/-- `Inside D stores u t`: values of the type `t` consist, among others, of values of the type `u`. `stores` tells for
which types of the libraries the type arguments count. -/
inductive Inside (D : Defs) (stores : String → Prop) : Rt → Rt → Prop where
  | arg {n args t} : stores n → t ∈ args → Inside D stores t (.builtin n args)
  | item {t ts} : t ∈ ts → Inside D stores t (.tuple ts)
  | element {t n} : Inside D stores t (.array t n)
  | slice {t} : Inside D stores t (.slice t)
  | field {abs args k fs f} : D abs = some (k, fs) → f ∈ fs → Inside D stores (subst args f) (.named abs args)

/-- The types of the libraries that contain a value of their type argument themselves: `Option` and `mabo::NonZero`
(lib.rs:142). `Vec`, `Box`, `HashMap` and `HashSet` own values in another place. -/
def inPlace (n : String) : Prop := n = "Option" ∨ n = "NonZero"

/-- A type of finite size: there is no infinite sequence of types that contain each other. -/
def HasSize (D : Defs) (t : Rt) : Prop := Acc (Inside D inPlace) t

/-- The functions for `t` call those for `u`, whatever owns the values, and so on: Rust has to generate code for
each of them. -/
inductive Needs (D : Defs) : Rt → Rt → Prop where
  | self {t} : Needs D t t
  | step {t u v} : Needs D t u → Inside D (fun _ => True) v u → Needs D t v

/-- The type parameters of a type, as types. -/
def params (n : Nat) : List Rt := (List.range n).map .param

/-! ### Used type parameters -/

/-- The type parameter `i` matters for the type: it is mentioned, but not merely as an argument of a named type whose own
parameter does not matter. (The least such relation: what is only mentioned for itself does not matter.) -/
inductive Matters (D : Defs) : Nat → Rt → Prop where
  | here {i} : Matters D i (.param i)
  | arg {i n args t} : t ∈ args → Matters D i t → Matters D i (.builtin n args)
  | item {i t ts} : t ∈ ts → Matters D i t → Matters D i (.tuple ts)
  | element {i t n} : Matters D i t → Matters D i (.array t n)
  | slice {i t} : Matters D i t → Matters D i (.slice t)
  | named {i abs args k fs f j t} : D abs = some (k, fs) → f ∈ fs → Matters D j f → args[j]? = some t → Matters D i t →
      Matters D i (.named abs args)

/-! ### Derived traits -/

mutual
/-- Types with `Eq` and `Hash`, which keys of maps and elements of sets must have to be compared. The types of the crate and
`mabo::NonZero` (lib.rs:141) derive neither, and type parameters are not known to have them. -/
def isKey : Rt → Bool
  | .builtin n args =>
    (!["f32", "f64", "HashMap", "HashSet", "NonZero"].contains n) && areKeys args
  | .tuple ts => decide (ts.length ≤ 12) && areKeys ts
  | .array t _ => isKey t
  | .slice t => isKey t
  | .named _ _ => false
  | .param _ => false
/-- All of them. -/
def areKeys : List Rt → Bool
  | [] => true
  | t :: ts => isKey t && areKeys ts
end

mutual
/-- Types with `Clone`, `Debug` and `PartialEq`, if the type parameters have them (which the derived implementations demand)
and the types of the crate have them for arguments that do. Tuples have them up to twelve items; maps and sets can be compared
if their keys have `Eq` and `Hash`. -/
def canDerive : Rt → Bool
  | .builtin n args => (!["HashMap", "HashSet"].contains n || args.head?.all isKey) && allDerive args
  | .tuple ts => decide (ts.length ≤ 12) && allDerive ts
  | .array t _ => canDerive t
  | .slice t => canDerive t
  | .named _ args => allDerive args
  | .param _ => true
/-- All of them. -/
def allDerive : List Rt → Bool
  | [] => true
  | t :: ts => canDerive t && allDerive ts
end

/-! ### Where types are mentioned -/

mutual
/-- The named types that are mentioned in a type without anything in between that owns its values in another place, that is
not below `Vec`, `HashMap`, `HashSet` and `Box`. -/
def direct : Rt → List (List String)
  | .builtin n args => if n = "Option" ∨ n = "NonZero" then directs args else []
  | .tuple ts => directs ts
  | .array t _ => direct t
  | .slice t => direct t
  | .named abs args => abs :: directs args
  | .param _ => []
/-- In all of them. -/
def directs : List Rt → List (List String)
  | [] => []
  | t :: ts => direct t ++ directs ts
end

mutual
/-- All named types that are mentioned in a type. -/
def names : Rt → List (List String)
  | .builtin _ args => allNames args
  | .tuple ts => allNames ts
  | .array t _ => names t
  | .slice t => names t
  | .named abs args => abs :: allNames args
  | .param _ => []
/-- In all of them. -/
def allNames : List Rt → List (List String)
  | [] => []
  | t :: ts => names t ++ allNames ts
end

mutual
/-- All type parameters that are mentioned in a type. -/
def paramsOf : Rt → List Nat
  | .builtin _ args => allParams args
  | .tuple ts => allParams ts
  | .array t _ => paramsOf t
  | .slice t => paramsOf t
  | .named _ args => allParams args
  | .param i => [i]
/-- In all of them. -/
def allParams : List Rt → List Nat
  | [] => []
  | t :: ts => paramsOf t ++ allParams ts
end

/-- The definition of `a` mentions the type `b` directly. -/
def DirectMention (D : Defs) (b a : List String) : Prop := ∃ k fs f, D a = some (k, fs) ∧ f ∈ fs ∧ b ∈ direct f

/-- The definition of `a` mentions the type `b`. -/
def Mention (D : Defs) (b a : List String) : Prop := ∃ k fs f, D a = some (k, fs) ∧ f ∈ fs ∧ b ∈ names f

/-- Definitions never mention each other directly in a circle: there is a vector, map or set on the way. (For infinitely
many definitions, no endless chain either.) -/
def NoDirectCycle (D : Defs) : Prop := WellFounded (DirectMention D)

/-- Definitions never mention each other in a circle: there is no recursion. -/
def NoCycle (D : Defs) : Prop := WellFounded (Mention D)

mutual
/-- The named types in the type have definitions with as many type parameters as there are arguments. -/
def Known (D : Defs) : Rt → Prop
  | .builtin _ args => AllKnown D args
  | .tuple ts => AllKnown D ts
  | .array t _ => Known D t
  | .slice t => Known D t
  | .named abs args => (∃ fs, D abs = some (args.length, fs)) ∧ AllKnown D args
  | .param _ => True
/-- In all of them. -/
def AllKnown (D : Defs) : List Rt → Prop
  | [] => True
  | t :: ts => Known D t ∧ AllKnown D ts
end

mutual
/-- The named types in the type have no arguments. -/
def plain : Rt → Bool
  | .builtin _ args => allPlain args
  | .tuple ts => allPlain ts
  | .array t _ => plain t
  | .slice t => plain t
  | .named _ args => args.isEmpty
  | .param _ => true
/-- In all of them. -/
def allPlain : List Rt → Bool
  | [] => true
  | t :: ts => plain t && allPlain ts
end

/-- What Rust demands of a type definition. -/
structure Accepted (D : Defs) (abs : List String) (k : Nat) (fs : List Rt) : Prop where
  sized : HasSize D (.named abs (params k))
  used : ∀ i, i < k → ∃ f ∈ fs, Matters D i f
  derives : ∀ f ∈ fs, canDerive f = true

end Mabo.Layout
