import Verif.Rust.Check
import Verif.Rust.DecodeKnot
import Verif.Rust.Exact
import Verif.Rust.EncodeKnot
import Verif.Props.Build
import Verif.Props.Robust
/-!
C66 (the emitted Rust functions, as Rust executes them, do what the other properties say generated code does) and C67 (which
schemas have generated functions that compile).

Vocabulary: `sizeFn`, `encodeFn`, `decodeFn` — the body emitted by the generator (`Rust/Emit.lean`), type checked and given
its meaning by `Rust/Elab.lean`, or `none` if it does not compile; `world files o n` — the traits `Size`, `Encode` and
`Decode` of the whole crate, where calls between the crate's types can be nested `n` times; `Compiles` — the
emitted functions of all types of the crate compile, which is the same as `CrateGood`, the condition on the names and types
of the crate (`Rust/GoodCrate.lean`, `Rust/Good.lean`); `o` — whether `bytes` is `Vec<u8>` or `bytes::Bytes`.
-/
namespace Mabo.Props
open Mabo.Spec Mabo.Build Mabo.Rust
open Mabo.Parse (Text Std)
open Mabo.Schema (Ty Val)

/-- Whether all three functions of the type compile. -/
noncomputable def functionsCompile (files : Files) (o : BytesType) (abs : List String) : Bool :=
  match itemAt files abs with
  | some it => (sizeFn files o abs it).isSome && (encodeFn files o abs it).isSome && (decodeFn files o abs it).isSome
  | none => false

/-- All emitted functions of the crate compile. -/
def Compiles (files : Files) (o : BytesType) : Prop :=
  ∀ abs, (itemAt files abs).isSome = true → functionsCompile files o abs = true

theorem compiles_iff {files : Files} {o : BytesType} : Compiles files o ↔ CrateGood files o := by
  refine ⟨fun h abs it hit => ?_, fun h abs hs => ?_⟩
  · have := h abs (by rw [hit]; rfl)
    simp only [functionsCompile, hit, Bool.and_eq_true] at this
    exact item_need this.1.1 this.1.2 this.2
  · cases hit : itemAt files abs with
    | none => simp [hit] at hs
    | some it =>
      obtain ⟨h1, h2, h3⟩ := item_fns (h abs it hit).1 (h abs it hit).2
      simp only [functionsCompile, hit, h1, h2, h3, Bool.and_self]

/-! ### C66: what emitted code does -/

/-- C66. `size()` and `encode()`: for every value of every type of the crate, in which calls can be nested deep enough, the
emitted functions return the size and write the bytes that `Codegen.size` and `Codegen.enc` say, on which C13 … C23 are
stated. -/
theorem C66_encode (files : Files) (o : BytesType) (hg : Compiles files o) (name : List String) (args : List Ty) (v : Val)
    (ht : hasEnc o (arityOf files) (.ext name args) = true) (hw : Schema.wt (crateEnv files) (.ext name args) v = true) :
    ∃ depth, ∀ n, depth ≤ n →
      (world files o n).size (.ext name args) v = some (Codegen.size (crateEnv files) (.ext name args) v) ∧
      (world files o n).enc (.ext name args) v = some (Codegen.enc (crateEnv files) false (.ext name args) v) :=
  ⟨sizeOf v, fun n hn => world_ok (compiles_iff.1 hg) n _ v ht hw hn⟩

/-- C66. `decode()`: on every input, whether it is an encoding or not, the emitted function returns what
`Codegen.decodeExt` says; more nested calls than there are bytes never happen. -/
theorem C66_decode (files : Files) (o : BytesType) (hg : Compiles files o) (name : List String) (args : List Ty)
    (ht : hasDec o (arityOf files) (.ext name args) = true) (r : Buf.Bytes) (n : Nat) (hn : r.length < n) :
    (world files o n).dec (.ext name args) r = Codegen.decodeExt (crateEnv files) name args r := by
  rw [world_dec (compiles_iff.1 hg) n _ ht, Codegen.decTy, Codegen.decodeExt]
  exact Codegen.decExt_fuel _ _ _ _ _ _ hn (Nat.lt_succ_self _)

/-- C66. From the text of the files to the execution of the emitted code: in the crate of an accepted project, what the
emitted `encode` writes for a value (side conditions as in C13) is read by the emitted `decode` as the same value, whatever
follows, and nothing of what follows is read. -/
theorem C66_roundtrip (order : Resolve.Order) (ho : Resolve.IsOrder order) (std : Std)
    (valid : Simplify.Schema → Bool) (checked : Bool) (inputs : List (String × Text)) (files : Files) (o : BytesType)
    (hn : (inputs.map (·.1)).Nodup) (h : compile order std valid checked inputs = ⟨.ok (), files⟩)
    (hw : ∀ v ∈ schemasOf std inputs, ∀ d, Occurs v.2 d → ∀ l, IdList d l → WireIds l) (hg : Compiles files o)
    (name : List String) (args : List Ty) (v : Val)
    (he : hasEnc o (arityOf files) (.ext name args) = true) (hd : hasDec o (arityOf files) (.ext name args) = true)
    (hwt : Schema.wt (crateEnv files) (.ext name args) v = true) (hf : faithful (crateEnv files) (.ext name args) v = true)
    (hl : (Codegen.enc (crateEnv files) false (.ext name args) v).length < 2 ^ 64) :
    ∃ bytes, (∃ depth, ∀ n, depth ≤ n → (world files o n).enc (.ext name args) v = some bytes) ∧
      ∀ rest n, (bytes ++ rest).length < n → (world files o n).dec (.ext name args) (bytes ++ rest) = .ok v rest := by
  obtain ⟨k, hk⟩ := C66_encode files o hg name args v he hwt
  refine ⟨_, ⟨k, fun n hn => (hk n hn).2⟩, fun rest n hr => ?_⟩
  rw [C66_decode files o hg name args hd _ n hr]
  exact C47_roundtrip_partial order ho std valid checked inputs files hn h hw name args v hwt hf hl rest

/-- C66. On any input at all, the emitted `decode` returns a value or an error, if the schema has no arrays and no zero-byte
elements (`SafeEnv`, see C20). -/
theorem C66_decode_total (files : Files) (o : BytesType) (hg : Compiles files o) (arity : List String → Nat)
    (hE : SafeEnv (crateEnv files) arity) (name : List String) (args : List Ty)
    (ht : hasDec o (arityOf files) (.ext name args) = true) (hs : safeTy (crateEnv files) arity 0 (.ext name args) = true)
    (r : Buf.Bytes) (n : Nat) (hn : r.length < n) :
    (∃ v r', (world files o n).dec (.ext name args) r = .ok v r') ∨ ∃ e, (world files o n).dec (.ext name args) r = .err e := by
  rw [C66_decode files o hg name args ht r n hn]
  exact C20_decode_total_partial _ arity hE name args hs r

/-! ### C67: which code compiles -/

/-- C67, for every crate and every type in it: the three emitted functions compile if and only if the names and types of the
definition and of what surrounds it satisfy `valuesGood` and `itemGood` — a finite check of names and types, which does not
look at emitted code. -/
theorem C67_exact (files : Files) (o : BytesType) (abs : List String) (it : Build.Item) (hit : itemAt files abs = some it) :
    functionsCompile files o abs = true ↔
      valuesGood (scopeAt files abs.dropLast it.generics) it = true ∧
        itemGood o (scopeAt files abs.dropLast it.generics) it = true := by
  refine ⟨fun h => ?_, fun h => ?_⟩
  · simp only [functionsCompile, hit, Bool.and_eq_true] at h
    exact item_need h.1.1 h.1.2 h.2
  · obtain ⟨h1, h2, h3⟩ := item_fns h.1 h.2
    simp only [functionsCompile, hit, h1, h2, h3, Bool.and_self]

/-- C67 (partial: the names and types of the crate must be `CrateGood`; the full claim, for every accepted project, is
refuted below). Every type of the crate has all three functions, and they compile. And the condition cannot be weakened: it
holds whenever all functions compile. -/
theorem C67_compiles_partial (files : Files) (o : BytesType) : CrateGood files o ↔ Compiles files o := compiles_iff.symm

/-! ### The example of C47 -/

theorem buildFiles_good (o : BytesType) : Compiles buildFiles o :=
  compiles_iff.2 (crateGood_iff.1 (by cases o <;> decide +kernel))

example (o : BytesType) : functionsCompile buildFiles o ["a", "S"] = true := buildFiles_good o _ (by decide +kernel)

/-- The hypotheses of `C66_roundtrip` are met by the project `buildInputs`, and the emitted code turns `buildValue` into bytes
and back. -/
example : ∃ bytes, (∃ depth, ∀ n, depth ≤ n → (world buildFiles .vecU8 n).enc (.ext ["a", "S"] [.prim .u8]) buildValue =
      some bytes) ∧
    ∀ rest n, (bytes ++ rest).length < n →
      (world buildFiles .vecU8 n).dec (.ext ["a", "S"] [.prim .u8]) (bytes ++ rest) = .ok buildValue rest :=
  C66_roundtrip id isOrder_id C37_std (fun _ => true) true buildInputs buildFiles .vecU8 (by decide) buildFiles_eq
    (by
      have h : ∀ v ∈ schemasOf C37_std buildInputs, wireDefs v.2.definitions = true := by
        have : (schemasOf C37_std buildInputs).all (fun v => wireDefs v.2.definitions) = true := by decide +kernel
        simpa only [List.all_eq_true] using this
      exact fun v hv => wireDefs_ok (h v hv))
    (buildFiles_good _) _ _ _ (by decide +kernel) (by decide +kernel) (by decide +kernel) (by decide +kernel)
    (by decide +kernel)

/-- The bytes the emitted code writes for it, by running it. -/
example : (world buildFiles .vecU8 3).enc (.ext ["a", "S"] [.prim .u8]) buildValue =
    some (Codegen.enc (crateEnv buildFiles) false (.ext ["a", "S"] [.prim .u8]) buildValue) := by decide +kernel

/-! ### Where C67 fails -/

/-- Which of the functions of the type `S` compile, if the file `a` with the given text is accepted: `size`, `encode` and
`decode`. -/
noncomputable def outcome (o : BytesType) (text : String) : Option (Bool × Bool × Bool) :=
  let b := compile id C37_std (fun _ => true) true [("a", text.toList)]
  if succeeds b then
    (itemAt b.written ["a", "S"]).map fun it =>
      ((sizeFn b.written o ["a", "S"] it).isSome, (encodeFn b.written o ["a", "S"] it).isSome,
        (decodeFn b.written o ["a", "S"] it).isSome)
  else none

-- a schema with most kinds of fields, for comparison
example : outcome .vecU8 "struct S<T> { a: u8 @1, b: option<T> @2, c: hash_map<string, vec<(u32, T)>> @3, d: [non_zero<u16>; 4] @4 }" =
    some (true, true, true) := by decide +kernel

/-- The right side of `C67_exact` for `S`. -/
def isGood (o : BytesType) (text : String) : Option Bool :=
  let b := compile id C37_std (fun _ => true) true [("a", text.toList)]
  (itemAt b.written ["a", "S"]).map fun it =>
    valuesGood (scopeAt b.written ["a"] it.generics) it && itemGood o (scopeAt b.written ["a"] it.generics) it

-- both sides of the equivalence are met by accepted schemas, and a hidden name matters only where it is used
example : isGood .vecU8 "struct K(u8)\nstruct S { a: vec<(K, u8)> @1 }" = some true ∧
    isGood .vecU8 "struct K(u8)\nstruct S(hash_map<K, u8>)" = some false ∧
    isGood .vecU8 "struct String(u8)\nstruct Err(u8)\nstruct S(u8)" = some true ∧
    outcome .vecU8 "struct String(u8)\nstruct Err(u8)\nstruct S(u8)" = some (true, true, true) ∧
    isGood .vecU8 "struct String(u8)\nstruct S(string)" = some false ∧
    isGood .vecU8 "struct Err(u8)\nenum S { A @1 }" = some false :=
  ⟨by decide +kernel, by decide +kernel, by decide +kernel, by decide +kernel, by decide +kernel, by decide +kernel⟩

/-- Refutation of C67: a tuple directly inside of a tuple, whose elements `size` and `encode` pass as `*&&n0.0.0`, a
reference. -/
theorem C67_fails_for_tuples_in_tuples :
    outcome .vecU8 "struct S(((u8, u8), u8))" = some (false, false, true) ∧
    outcome .vecU8 "struct K(u8)\nstruct S(((K, u8), u8))" = some (false, false, true) := by
  exact ⟨by decide +kernel, by decide +kernel⟩

/-- Refutation of C67: an option or a non-zero integer in a tuple, passed as `&n0.0.as_ref()` and `&n0.0.get()`. -/
theorem C67_fails_for_options_in_tuples :
    outcome .vecU8 "struct S((option<u8>, u8))" = some (false, false, true) ∧
    outcome .vecU8 "struct S((non_zero<u8>, u8))" = some (false, false, true) := by
  exact ⟨by decide +kernel, by decide +kernel⟩

/-- Refutation of C67: keys of maps and elements of sets without `Eq` and `Hash`: floats, types of the schema (which derive
neither) and type parameters. -/
theorem C67_fails_for_keys :
    outcome .vecU8 "struct S(hash_set<f32>)" = some (true, true, false) ∧
    outcome .vecU8 "struct K(u8)\nstruct S(hash_map<K, u8>)" = some (true, true, false) ∧
    outcome .vecU8 "struct S<T>(hash_set<T>)" = some (true, true, false) := by
  exact ⟨by decide +kernel, by decide +kernel, by decide +kernel⟩

/-- Refutation of C67: type arguments for which the runtime crate has no implementations: tuples, Rust's non-zero integers,
`NonZero<String>` (which has no `Decode`) and `bytes::Bytes`. -/
theorem C67_fails_for_type_arguments :
    outcome .vecU8 "struct P<T>(T)\nstruct S(P<(u8, u8)>)" = some (false, false, false) ∧
    outcome .vecU8 "struct P<T>(T)\nstruct S(P<non_zero<u8>>)" = some (false, false, false) ∧
    outcome .vecU8 "struct P<T>(T)\nstruct S(P<non_zero<string>>)" = some (true, true, false) ∧
    outcome .bytes "struct P<T>(T)\nstruct S(P<bytes>)" = some (false, false, false) := by
  exact ⟨by decide +kernel, by decide +kernel, by decide +kernel, by decide +kernel⟩

/-- Refutation of C67: fields with the names of variables of the emitted functions. -/
theorem C67_fails_for_field_names :
    outcome .vecU8 "struct S { w: u8 @1 }" = some (true, false, true) ∧
    outcome .vecU8 "struct S { r: u8 @1 }" = some (true, true, false) ∧
    outcome .vecU8 "struct S { id: u8 @1 }" = some (true, true, false) := by
  exact ⟨by decide +kernel, by decide +kernel, by decide +kernel⟩

/-- Refutation of C67: definitions, modules and type parameters that hide names of Rust's prelude, on which the emitted
functions of *other* types rely. -/
theorem C67_fails_for_prelude_names :
    outcome .vecU8 "struct Some(u8)\nstruct S(u8)" = some (true, true, false) ∧
    outcome .vecU8 "struct Ok(u8)\nstruct S(u8)" = some (true, true, false) ∧
    outcome .vecU8 "struct Option(u8)\nstruct S(u8)" = some (true, true, false) ∧
    outcome .vecU8 "struct Vec<T>(T)\nstruct S(vec<u8>)" = some (true, true, false) ∧
    outcome .vecU8 "mod u8 { struct T(u16) }\nstruct S(u8)" = some (true, true, false) ∧
    outcome .vecU8 "struct S<String>(String, string)" = some (true, true, false) := by
  exact ⟨by decide +kernel, by decide +kernel, by decide +kernel, by decide +kernel, by decide +kernel, by decide +kernel⟩

/-- Refutation of C67: `box<bytes>` (always `Box<[u8]>`) where `bytes::Bytes` is selected for `bytes`: the function called
takes `&Bytes`. -/
theorem C67_fails_for_boxed_bytes : outcome .bytes "struct S(box<bytes>)" = some (false, false, true) := by decide +kernel

/-- The type is stored directly inside of a value of the type, not on the heap as in vectors, maps and sets. -/
inductive StoredIn (abs : List String) : Ty → Prop where
  | here {args} : StoredIn abs (.ext abs args)
  | option {t} : StoredIn abs t → StoredIn abs (.option t)
  | array {t n} : StoredIn abs t → StoredIn abs (.array t n)
  | tuple {t ts} : t ∈ ts → StoredIn abs t → StoredIn abs (.tuple ts)

/-- A type that contains itself would be infinitely large, which Rust rejects (E0072). -/
def Infinite (env : Schema.Env) (abs : List String) : Prop :=
  ∃ fs f, env abs = some (.struct fs) ∧ f ∈ fs.fields ∧ StoredIn abs f.ty

/-- A field that is an option of the struct. -/
def optionOf (env : Schema.Env) (abs : List String) : Bool :=
  match env abs with
  | some (.struct ⟨_, ⟨_, .option (.ext n _), _⟩ :: _⟩) => n == abs
  | _ => false

theorem optionOf_infinite {env : Schema.Env} {abs : List String} (h : optionOf env abs = true) : Infinite env abs := by
  unfold optionOf at h
  split at h
  · next he =>
    rw [beq_iff_eq] at h
    subst h
    exact ⟨_, _, he, List.mem_cons_self, .option .here⟩
  · simp at h

/-- Refutation of C67: a list whose nodes have an optional next node is accepted, its functions are fine, but the emitted
type contains itself. (There is no `box<T>` for such types in the schema language.) -/
theorem C67_fails_for_recursion :
    outcome .vecU8 "struct S { next: option<S> @1 }" = some (true, true, true) ∧
    Infinite (crateEnv (compile id C37_std (fun _ => true) true [("a", "struct S { next: option<S> @1 }".toList)]).written)
      ["a", "S"] :=
  ⟨by decide +kernel, optionOf_infinite (by decide +kernel)⟩

end Mabo.Props
