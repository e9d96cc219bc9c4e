import Verif.Spec.ResolveErrors
import Verif.Spec.Diagnostics
import Verif.Compiler.ResolveLabels
/-!
Where the labels of the resolver's errors have to be. Places in a file are given by the number of tokens in front of them, as in
`Spec/Diagnostics.lean`; only the errors and labels themselves are taken from the model.
-/
namespace Mabo.Spec.Labels
open Mabo.Parse (Text)
open Mabo.Spec Mabo.Spec.Diag Mabo.Ast
open Mabo.Labels (File Range Label NamedSource)

/-- The module `mods` of the schema has these definitions; `n` tokens are in front of the first one. -/
inductive ScopeIn (std : Parse.Std) (s : Ast.Schema) : (mods : List String) → (n : Nat) → List Definition → Prop
  | root : ScopeIn std s [] 0 s.definitions
  | inner {mods : List String} {n : Nat} {ds inner : List Definition} {i : Nat} {comment : List String} {name : String} :
      ScopeIn std s mods n ds → ds[i]? = some (.module comment name inner) →
      ScopeIn std s (mods ++ [name]) (n + (definitionsItems std (ds.take i)).length + comment.length + 3) inner

/-- `d` is a definition of the module `mods`, whose definitions are `scope`; `n` tokens are in front of it. -/
def DefIn (std : Parse.Std) (s : Ast.Schema) (mods : List String) (scope : List Definition) (n : Nat) (d : Definition) : Prop :=
  ∃ m i, ScopeIn std s mods m scope ∧ scope[i]? = some d ∧ n = m + (definitionsItems std (scope.take i)).length

/-- A struct, enum, alias or constant. -/
def IsItem : Definition → Prop
  | .struct _ | .enum _ | .typeAlias _ | .const _ => True
  | _ => False

/-- The module `mods` has a struct, enum, alias or constant called `name`, and that name has `n` tokens in front of it. -/
def DeclaredAt (std : Parse.Std) (s : Ast.Schema) (mods : List String) (name : String) (n : Nat) : Prop :=
  ∃ scope m d, DefIn std s mods scope m d ∧ IsItem d ∧ introduced d = [name] ∧ n = m + nameOffset d

/-- In the type `t`, which has `n` tokens in front of it, the type `u` is a part, not inside `non_zero<..>`, with `m` tokens in
front of it. -/
inductive PartAt (u : DataType) (m : Nat) : (n : Nat) → (t : DataType) → Prop
  | here : PartAt u m m u
  | vec {n t} : PartAt u m (n + 2) t → PartAt u m n (.vec t)
  | hashSet {n t} : PartAt u m (n + 2) t → PartAt u m n (.hashSet t)
  | option {n t} : PartAt u m (n + 2) t → PartAt u m n (.option t)
  | hashMapKey {n k v} : PartAt u m (n + 2) k → PartAt u m n (.hashMap k v)
  | hashMapValue {n k v} : PartAt u m (n + 2 + (typeItems k).length + 1) v → PartAt u m n (.hashMap k v)
  | array {n t size} : PartAt u m (n + 1) t → PartAt u m n (.array t size)
  | tuple {n ts tr t} {i : Nat} : ts[i]? = some t → PartAt u m (n + 1 + withCommas ((ts.take i).map typeItems)) t →
      PartAt u m n (.tuple ts tr)
  | argument {n path name args tr t} {i : Nat} : args[i]? = some t →
      PartAt u m (n + 2 * path.length + 2 + withCommas ((args.take i).map typeItems)) t →
      PartAt u m n (.external path name args tr)

/-- The fields of a definition that has `n` tokens in front of it. -/
inductive FieldsIn (n : Nat) : Definition → (m : Nat) → Fields → Prop
  | struct {s : Struct} : FieldsIn n (.struct s) (n + s.comment.length + 2 + paramTokens (.struct s)) s.fields
  | variant {e : Enum} {i : Nat} {v : Variant} : e.variants[i]? = some v →
      FieldsIn n (.enum e) (n + e.comment.length + 2 + paramTokens (.enum e) + 1 +
        withCommas ((e.variants.take i).map variantItems) + v.comment.length + 1) v.fields

/-- The types of fields that have `n` tokens in front of them. -/
inductive TypeIn (n : Nat) : Fields → (m : Nat) → DataType → Prop
  | named {fs : List NamedField} {tr : Bool} {i : Nat} {f : NamedField} : fs[i]? = some f →
      TypeIn n (.named fs tr) (n + 1 + withCommas ((fs.take i).map namedFieldItems) + f.comment.length + 2) f.ty
  | unnamed {fs : List UnnamedField} {tr : Bool} {i : Nat} {f : UnnamedField} : fs[i]? = some f →
      TypeIn n (.unnamed fs tr) (n + 1 + withCommas ((fs.take i).map unnamedFieldItems)) f.ty

/-- The definition `d`, which has `n` tokens in front of it, mentions the type `path::name<args>` in a field; the token `name` has
`k` tokens in front of it. -/
def MentionedAt (n : Nat) (d : Definition) (path : List String) (name : String) (args : List DataType) (k : Nat) : Prop :=
  ∃ fs a t b tr m, FieldsIn n d a fs ∧ TypeIn a fs b t ∧ PartAt (.external path name args tr) m b t ∧ k = m + 2 * path.length

/-- The tokens of the file are at these places. -/
def Tokenized (std : Parse.Std) (f : File) (places : List Doc.Place) : Prop :=
  Doc.Placed [] f.source places ((definitionsItems std f.schema.erase.definitions).map Doc.plain)

/-- The range, in bytes, is that of the token with `n` tokens in front of it, and that token is `name`. -/
def Marks (f : File) (places : List Doc.Place) (n : Nat) (name : String) (r : Range) : Prop :=
  ∃ p rest, places[n]? = some p ∧ f.source = p.before ++ p.here ++ rest ∧ p.here = name.toList ∧
    r = (Lsp.bytes p.before, Lsp.bytes (p.before ++ p.here))

section
variable (std : Parse.Std) (files : List (String × File)) (places : String → List Doc.Place)

/-- The schemas. -/
def schemasOf : List (String × Ast.Schema) := files.map fun v => (v.1, v.2.schema.erase)

/-- The label "declared here" on the item `name` of the module `mods` of the file `stem`. -/
def DeclaredLabel (stem : String) (f : File) (mods : List String) (name : String) (l : Label) : Prop :=
  ∃ n r, DeclaredAt std f.schema.erase mods name n ∧ Marks f (places stem) n name r ∧ l = ("declared here", r)

/-- The label "used here" on the token `name` with `n` tokens in front of it. -/
def UsedLabel (stem : String) (f : File) (n : Nat) (name : String) (l : Label) : Prop :=
  ∃ r, Marks f (places stem) n name r ∧ l = ("used here", r)

/-- The labels for an error about the import `i`, which has `n` tokens in front of it, of the file `stem`: on the first name of
the path; on the missing module, the one behind the path that was found; on the element. -/
inductive ImportLabels (stem : String) (f : File) (i : Import) (n : Nat) : Mabo.Resolve.ImportError → List Label → Prop
  | schema {root l} : UsedLabel places stem f (n + 1) root l → ImportLabels stem f i n (.missingSchema root) [l]
  | module {name path l} : UsedLabel places stem f (n + 1 + path.length) name l →
      ImportLabels stem f i n (.missingModule name path) [l]
  | definition {name path l} : UsedLabel places stem f (n + nameOffset (.import i)) name l →
      ImportLabels stem f i n (.missingDefinition name path) [l]
  /-- Not in the file that is shown, but in the imported one: see `C77_fails_for_imported_kinds`. -/
  | kind {k root path name other l l'} : i = ⟨root :: path, some name⟩ → (root, other) ∈ files →
      DeclaredLabel std places root other path name l → UsedLabel places stem f (n + nameOffset (.import i)) name l' →
      ImportLabels stem f i n (.invalidKind k) [l, l']

/-- The type `name` comes from the module `p` of the file `root` through an import of the schema: one of the type, or of the
module, if the type is used with a path. -/
inductive Through (s : Ast.Schema) (root : String) (p : List String) (name : String) : (path : List String) → Prop
  | type : Definition.import ⟨root :: p, some name⟩ ∈ s.definitions → Through s root p name []
  | module {x : String} {rest : List String} : Definition.import ⟨root :: p, none⟩ ∈ s.definitions →
      (root :: p).getLast? = some x → Through s root p name (x :: rest)

/-- The labels, and the related labels with the source they belong to, for an error about the type `path::name<..>`, used in the
module `mods` of the file `stem`; the token `name` has `k` tokens in front of it. -/
inductive RefLabels (stem : String) (f : File) (mods path : List String) (name : String) (k : Nat) :
    Mabo.Resolve.ResolveError → List Label → List (NamedSource × List Label) → Prop
  /-- On the type, not on the module: see `C77_fails_for_missing_modules`. -/
  | module {x p l} : UsedLabel places stem f k name l → RefLabels stem f mods path name k (.loc (.missingModule x p)) [l] []
  | definition {x p l} : UsedLabel places stem f k name l →
      RefLabels stem f mods path name k (.loc (.missingDefinition x p)) [l] []
  | count {g n l l'} : DeclaredLabel std places stem f (mods ++ path) name l → UsedLabel places stem f k name l' →
      RefLabels stem f mods path name k (.loc (.genericsCount g n)) [l, l'] []
  | kind {w l l'} : DeclaredLabel std places stem f (mods ++ path) name l → UsedLabel places stem f k name l' →
      RefLabels stem f mods path name k (.loc (.invalidKind w)) [l, l'] []
  | noImport {p x l} : UsedLabel places stem f k name l → RefLabels stem f mods path name k (.remote (.missingImport p x)) [l] []
  | remoteDefinition {x p l} : UsedLabel places stem f k name l →
      RefLabels stem f mods path name k (.remote (.missingDefinition x p)) [l] []
  | remoteCount {n g root p other l l'} : Through f.schema.erase root p name path → (root, other) ∈ files →
      DeclaredLabel std places root other p name l → UsedLabel places stem f k name l' →
      RefLabels stem f mods path name k (.remote (.genericsCount n g)) [l'] [(⟨other.path.getD "<unknown>", other.source⟩, [l])]
  | remoteKind {w root p other l l'} : Through f.schema.erase root p name path → (root, other) ∈ files →
      DeclaredLabel std places root other p name l → UsedLabel places stem f k name l' →
      RefLabels stem f mods path name k (.remote (.invalidKind w)) [l'] [(⟨other.path.getD "<unknown>", other.source⟩, [l])]

/-- The error, with these labels and related labels, is about an import of the file, or about a type that one of its fields
mentions and that has no meaning; what it says is the case (`Spec/ResolveErrors.lean`); and the labels are where they have to be. -/
inductive Shows (stem : String) (f : File) : Mabo.Resolve.ResolveError → List Label → List (NamedSource × List Label) → Prop
  | imp {i n e ls} : DefIn std f.schema.erase [] f.schema.erase.definitions n (.import i) →
      ImportProblem (schemasOf files) i e → ImportLabels std files places stem f i n e ls → Shows stem f (.imp e) ls []
  | ref {mods scope n d path name args k e ls rel} : DefIn std f.schema.erase mods scope n d →
      MentionedAt n d path name args k → ¬ Resolves (schemasOf files) f.schema.erase scope d path name args →
      RefProblem (schemasOf files) stem f.schema.erase mods scope path name args e →
      RefLabels std files places stem f mods path name k e ls rel → Shows stem f e ls rel

end

/-- The files are schema files that were read and passed validation, with different names. -/
structure Ready (std : Parse.Std) (files : List (String × File)) : Prop where
  names : (files.map (·.1)).Nodup
  parsed : ∀ v ∈ files, Spanned.parseSchema std v.2.source = some v.2.schema
  valid : ∀ v ∈ files, ∃ checked, Compiler.validateSchema checked v.2.schema.erase = .ok

end Mabo.Spec.Labels
