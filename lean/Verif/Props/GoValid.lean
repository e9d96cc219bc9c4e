import Verif.Props.GoRun
/-! C74 for whole files of valid Go: what C73 and C74 say together. -/
namespace Mabo.Props
open Mabo.Spec Mabo.Simplify Mabo.Compiler Mabo.Go Mabo.Spec.GoRun Mabo.Spec.GoBuild
open Mabo.Ast (DataType)
open Mabo.Schema (Prim)
open Mabo.Parse (Text)
open Mabo.Spec.GoRules (problems)

/-- Types without tuples and references are those that are covered. -/
theorem basic_simplify : ∀ t : DataType, (∀ ts tr, ¬ OwnPiece (.tuple ts tr) t) → (∀ path x args tr, ¬ Piece (.external path x args tr) t) →
    basicTy (simplifyType t) = true
  | .prim _, _, _ => rfl
  | .vec t, h, h' => basic_simplify t (fun ts tr hp => h ts tr (.vec hp)) (fun p x a tr hp => h' p x a tr (.vec hp))
  | .hashSet t, h, h' => basic_simplify t (fun ts tr hp => h ts tr (.hashSet hp)) (fun p x a tr hp => h' p x a tr (.hashSet hp))
  | .option t, h, h' => basic_simplify t (fun ts tr hp => h ts tr (.option hp)) (fun p x a tr hp => h' p x a tr (.option hp))
  | .nonZero t, h, h' => basic_simplify t (fun ts tr hp => h ts tr (.nonZero hp)) (fun p x a tr hp => h' p x a tr (.nonZero hp))
  | .array t _, h, h' => basic_simplify t (fun ts tr hp => h ts tr (.array hp)) (fun p x a tr hp => h' p x a tr (.array hp))
  | .hashMap k v, h, h' => by
    have h1 := basic_simplify k (fun ts tr hp => h ts tr (.hashMapKey hp)) (fun p x a tr hp => h' p x a tr (.hashMapKey hp))
    have h2 := basic_simplify v (fun ts tr hp => h ts tr (.hashMapValue hp)) (fun p x a tr hp => h' p x a tr (.hashMapValue hp))
    simp [simplifyType, basicTy, h1, h2]
  | .tuple ts tr, h, _ => absurd .here (h ts tr)
  | .external p x a tr, _, h' => absurd .here (h' p x a tr)

/-- The structs of a valid file without references have fields that are covered. -/
theorem plain_of_valid {checked : Bool} {name : String} {lines : List String} {ds : List Ast.Definition} {f : File}
    (hf : FileTree checked name lines ds f) (hp : problems f = []) (hr : NoReferences ds) {s : Ast.Struct} (hs : .struct s ∈ ds)
    {fs : Fields} (hfs : simplifyFields checked s.fields = some fs) : PlainFields fs := by
  have hn := needed hf hp
  refine ⟨fun d hd => ?_, ?_⟩
  · have hm : d.ty ∈ fs.fields.map (·.ty) := List.mem_map_of_mem hd
    rw [Mabo.Generator.simplifyFields_types hfs] at hm
    obtain ⟨t, ht, he⟩ := List.mem_map.1 hm
    have ht' : FieldType ds t := ⟨_, hs, _, .struct s, fieldTypes_mem.1 ht⟩
    rw [← he]
    exact basic_simplify t (hn.tuples t ht') (hr t (.inl ht'))
  · have := (hn.fields _ _ _ (.struct s hs)).1
    rw [← (simplifyFields_names hfs).1] at this
    exact this

/-- C74 and C73 together: the emitted Go code of an accepted schema or module without references to other types, if it is valid Go and
the fields of the struct have ids from 1 and are not optional, transfers all values: no further condition on names and types. -/
theorem C74_valid_roundtrip_partial (ρ : Runtime) (Leaf : Prim → GoRun.Val → Prop) (tag : Nat → List UInt8) (hρ : Faithful ρ Leaf tag)
    (ho : FieldOptions ρ tag) (checked : Bool) (sch : Ast.Schema) (hv : validateSchema checked sch = .ok) (ds : List Ast.Definition)
    (hsc : Scope sch ds) (hr : NoReferences ds) (name : String) (lines : List String) (f : File) (hf : FileTree checked name lines ds f)
    (hgo : problems f = []) (s : Ast.Struct) (hs : .struct s ∈ ds) (fs : Fields) (hfs : simplifyFields checked s.fields = some fs)
    (h0 : ∀ d ∈ fs.fields, d.id.toNat ≠ 0) (hopt : ∀ d ∈ fs.fields, isOption d.ty = false) :
    ∃ enc size dec, HasMethod f (upperCamel s.name.toList) "Encode".toList (bytesParam "w") enc ∧
      HasMethod f (upperCamel s.name.toList) "Size".toList [] size ∧
      HasMethod f (upperCamel s.name.toList) "Decode".toList (bytesParam "r") dec ∧
      ∀ g, (∀ d ∈ fs.fields, Fits Leaf d.ty (g (goName d))) → ∃ msg, Transfers ρ (upperCamel s.name.toList) enc size dec g msg
        [.bytes [], .nil] (fun g' => ∀ d ∈ fs.fields, g' (goName d) = g (goName d)) :=
  C74_roundtrip_partial ρ Leaf tag hρ ho checked sch hv ds hsc name lines f hf s hs fs hfs (plain_of_valid hf hgo hr hs hfs) h0 hopt

/-- The same for the failure: in such a file, a struct with an optional field that is nil cannot be read back. -/
theorem C74_valid_nil_options_fail (ρ : Runtime) (Leaf : Prim → GoRun.Val → Prop) (tag : Nat → List UInt8) (hρ : Faithful ρ Leaf tag)
    (ho : FieldOptions ρ tag) (checked : Bool) (sch : Ast.Schema) (hv : validateSchema checked sch = .ok) (ds : List Ast.Definition)
    (hsc : Scope sch ds) (hr : NoReferences ds) (name : String) (lines : List String) (f : File) (hf : FileTree checked name lines ds f)
    (hgo : problems f = []) (s : Ast.Struct) (hs : .struct s ∈ ds) (fs : Fields) (hfs : simplifyFields checked s.fields = some fs)
    (h0 : ∀ d ∈ fs.fields, d.id.toNat ≠ 0) (before : List Field) (d : Field) (behind : List Field)
    (hd : fs.fields = before ++ d :: behind) (hopt : isOption d.ty = true) (hb : ∀ b ∈ before, isOption b.ty = false) :
    ∃ enc size dec, HasMethod f (upperCamel s.name.toList) "Encode".toList (bytesParam "w") enc ∧
      HasMethod f (upperCamel s.name.toList) "Size".toList [] size ∧
      HasMethod f (upperCamel s.name.toList) "Decode".toList (bytesParam "r") dec ∧
      ∀ g, Sendable Leaf fs g → ∃ msg, Transfers ρ (upperCamel s.name.toList) enc size dec g msg
        [.nil, missingField d.id.toNat (if fs.kind = .named then d.name.toList else [])] (fun _ => True) :=
  C74_nil_options_fail ρ Leaf tag hρ ho checked sch hv ds hsc name lines f hf s hs fs hfs (plain_of_valid hf hgo hr hs hfs) h0 before d
    behind hd hopt hb

/-- The types written in these definitions. -/
theorem goPlain_types {t : DataType} (h : AnyType goPlain t) :
    t = .nonZero (.prim .u8) ∨ t = .array (.prim .bytes) 3 ∨ t = .hashMap (.prim .string) (.vec (.option (.prim .u16))) := by
  rcases h with ⟨d, hd, fs, hfs, ht⟩ | ⟨a, ha, _⟩
  · cases List.mem_singleton.1 hd
    cases hfs
    cases ht with
    | named f hf =>
      simp only [List.mem_cons, List.not_mem_nil, or_false] at hf
      rcases hf with rfl | rfl | rfl
      · exact .inl rfl
      · exact .inr (.inl rfl)
      · exact .inr (.inr rfl)
  · cases List.mem_singleton.1 ha

/-- There are no references. -/
theorem goPlain_references : NoReferences goPlain := by
  intro t ht path x args tr hp
  rcases goPlain_types ht with rfl | rfl | rfl
  · cases hp with | nonZero hp => cases hp
  · cases hp with | array hp => cases hp
  · cases hp with
    | hashMapKey hp => cases hp
    | hashMapValue hp => cases hp with | vec hp => cases hp with | option hp => cases hp

/-- C74_valid_roundtrip_partial applies: `goPlain` is valid Go. -/
example : ∃ f, FileTree true "p" [] goPlain f ∧ problems f = [] ∧ ∃ enc size dec, HasMethod f "User".toList "Encode".toList (bytesParam "w") enc ∧
    HasMethod f "User".toList "Size".toList [] size ∧ HasMethod f "User".toList "Decode".toList (bytesParam "r") dec ∧
    ∀ g, (∀ d ∈ goPlainSimple.fields, Fits Witness.Leaf d.ty (g (goName d))) → ∃ msg, Transfers Witness.runtime "User".toList enc size dec g msg
      [.bytes [], .nil] (fun g' => ∀ d ∈ goPlainSimple.fields, g' (goName d) = g (goName d)) := by
  obtain ⟨f, hf, hgo⟩ := goProblems_tree (show goProblems "p" goPlain = some [] by decide +kernel)
  exact ⟨f, hf, hgo, C74_valid_roundtrip_partial Witness.runtime Witness.Leaf Witness.unary Witness.faithful Witness.fieldOptions true ⟨[], goPlain⟩
    (by decide +kernel) goPlain .root goPlain_references "p" [] f hf hgo _ (List.mem_singleton.2 rfl) goPlainSimple rfl (by decide) (by decide)⟩

end Mabo.Props
