import Verif.Go.RunItem
import Verif.Props.GoBuild
import Verif.Demo
/-! C74: what the emitted Go code does. -/
namespace Mabo.Props
open Mabo.Spec Mabo.Simplify Mabo.Compiler Mabo.Go Mabo.Spec.GoRun
open Mabo.Build (Each)
open Mabo.Schema (Prim)
open Mabo.Parse (Text)

/-- What is known about a struct of an accepted schema and its methods in Go. -/
theorem struct_transfers {ρ : Runtime} {Leaf : Prim → Val → Prop} {tag : Nat → List UInt8} (hρ : Faithful ρ Leaf tag)
    (ho : FieldOptions ρ tag) {checked : Bool} {sch : Ast.Schema} (hv : validateSchema checked sch = .ok) {ds : List Ast.Definition}
    (hsc : Scope sch ds) {name : String} {lines : List String} {f : File} (hf : FileTree checked name lines ds f) {s : Ast.Struct}
    (hs : .struct s ∈ ds) {fs : Fields} (hfs : simplifyFields checked s.fields = some fs) (hp : PlainFields fs)
    (h0 : ∀ d ∈ fs.fields, d.id.toNat ≠ 0) :
    ∃ enc size dec, HasMethod f (upperCamel s.name.toList) "Encode".toList (bytesParam "w") enc ∧
      HasMethod f (upperCamel s.name.toList) "Size".toList [] size ∧
      HasMethod f (upperCamel s.name.toList) "Decode".toList (bytesParam "r") dec ∧
      ∀ g, Sendable Leaf fs g → ∃ msg, Transfers ρ (upperCamel s.name.toList) enc size dec g msg
        (match fs.fields.find? (fun d => isOption d.ty) with
          | none => [.bytes [], .nil]
          | some d => [.nil, missing fs.kind d])
        (fun g' => ∀ d ∈ fs.fields, isOption d.ty = false → g' (goName d) = g (goName d)) := by
  obtain ⟨es, hes, hfile⟩ := hf
  obtain ⟨enc, size, dec, h1, h2, h3, m1, m2, m3⟩ := item_methods hfile (struct_item hes hs hfs)
  refine ⟨_, _, _, m1, m2, m3, fun g hg => ?_⟩
  obtain ⟨bs, hbs⟩ := sent_of hρ h3 hp hg
  refine ⟨message tag bs fs, fun w => ⟨0, ?_⟩, ⟨0, ?_⟩, fun g₀ => ?_⟩
  · exact enc_invoke hρ ho hbs h1 fun Γ hΓ _ => .var hΓ.w
  · exact size_invoke hρ ho hbs h2
  · obtain ⟨g', h, h', _⟩ := dec_invoke hρ (t := upperCamel s.name.toList) (g := g₀) h3 (ids_nodup hv ⟨ds, hsc, hs⟩ (.struct s) hfs) hp.names h0
      (simplifyFields_unitEmpty hfs) hbs (Nat.le_refl _)
    exact ⟨g', ⟨_, h⟩, h'⟩

/-- C74 (partial: the full claim is that `Decode` reads whatever `Encode` writes, for all values of all emitted types; it fails for
optional fields and for variants, see below, and fields with tuples or types of other definitions are not valid Go, see C73). Let the
runtime library do what the names of its functions say. For a struct of an accepted schema with other fields, and ids from 1,
`Encode` appends a message to the bytes it is given, `Size` is the length of the message, and `Decode` of the message returns no bytes
and no error and sets all the fields to what they were. -/
theorem C74_roundtrip_partial (ρ : Runtime) (Leaf : Prim → Val → Prop) (tag : Nat → List UInt8) (hρ : Faithful ρ Leaf tag)
    (ho : FieldOptions ρ tag) (checked : Bool) (sch : Ast.Schema) (hv : validateSchema checked sch = .ok) (ds : List Ast.Definition)
    (hsc : Scope sch ds) (name : String) (lines : List String) (f : File) (hf : FileTree checked name lines ds f) (s : Ast.Struct)
    (hs : .struct s ∈ ds) (fs : Fields) (hfs : simplifyFields checked s.fields = some fs) (hp : PlainFields fs)
    (h0 : ∀ d ∈ fs.fields, d.id.toNat ≠ 0) (hopt : ∀ d ∈ fs.fields, isOption d.ty = false) :
    ∃ enc size dec, HasMethod f (upperCamel s.name.toList) "Encode".toList (bytesParam "w") enc ∧
      HasMethod f (upperCamel s.name.toList) "Size".toList [] size ∧
      HasMethod f (upperCamel s.name.toList) "Decode".toList (bytesParam "r") dec ∧
      ∀ g, (∀ d ∈ fs.fields, Fits Leaf d.ty (g (goName d))) → ∃ msg, Transfers ρ (upperCamel s.name.toList) enc size dec g msg
        [.bytes [], .nil] (fun g' => ∀ d ∈ fs.fields, g' (goName d) = g (goName d)) := by
  obtain ⟨enc, size, dec, m1, m2, m3, h⟩ := struct_transfers hρ ho hv hsc hf hs hfs hp h0
  refine ⟨enc, size, dec, m1, m2, m3, fun g hg => ?_⟩
  obtain ⟨msg, ht⟩ := h g ⟨fun d hd hd' => (nomatch (hopt d hd).symm.trans hd'), fun d hd _ => hg d hd⟩
  rw [List.find?_eq_none.2 fun d hd => by simp [hopt d hd]] at ht
  refine ⟨msg, ht.encode, ht.size, fun g₀ => ?_⟩
  obtain ⟨g', h1, h2⟩ := ht.decode g₀
  exact ⟨g', h1, fun d hd => h2 d hd (hopt d hd)⟩

/-- C74, refutation of the full claim: optional fields that are not set. `Encode` leaves them out, and `Decode` insists on them: it
returns the error that the first of them is missing. -/
theorem C74_nil_options_fail (ρ : Runtime) (Leaf : Prim → Val → Prop) (tag : Nat → List UInt8) (hρ : Faithful ρ Leaf tag)
    (ho : FieldOptions ρ tag) (checked : Bool) (sch : Ast.Schema) (hv : validateSchema checked sch = .ok) (ds : List Ast.Definition)
    (hsc : Scope sch ds) (name : String) (lines : List String) (f : File) (hf : FileTree checked name lines ds f) (s : Ast.Struct)
    (hs : .struct s ∈ ds) (fs : Fields) (hfs : simplifyFields checked s.fields = some fs) (hp : PlainFields fs)
    (h0 : ∀ d ∈ fs.fields, d.id.toNat ≠ 0) (before : List Field) (d : Field) (behind : List Field)
    (hd : fs.fields = before ++ d :: behind) (hopt : isOption d.ty = true) (hb : ∀ b ∈ before, isOption b.ty = false) :
    ∃ enc size dec, HasMethod f (upperCamel s.name.toList) "Encode".toList (bytesParam "w") enc ∧
      HasMethod f (upperCamel s.name.toList) "Size".toList [] size ∧
      HasMethod f (upperCamel s.name.toList) "Decode".toList (bytesParam "r") dec ∧
      ∀ g, Sendable Leaf fs g → ∃ msg, Transfers ρ (upperCamel s.name.toList) enc size dec g msg
        [.nil, missingField d.id.toNat (if fs.kind = .named then d.name.toList else [])] (fun _ => True) := by
  obtain ⟨enc, size, dec, m1, m2, m3, h⟩ := struct_transfers hρ ho hv hsc hf hs hfs hp h0
  refine ⟨enc, size, dec, m1, m2, m3, fun g hg => ?_⟩
  obtain ⟨msg, ht⟩ := h g hg
  have hfind : fs.fields.find? (fun d => isOption d.ty) = some d := by
    rw [hd, List.find?_append, List.find?_eq_none.2 fun b hm => by simp [hb b hm]]
    simp [hopt]
  rw [hfind] at ht
  refine ⟨msg, ht.encode, ht.size, fun g₀ => ?_⟩
  obtain ⟨g', h1, _⟩ := ht.decode g₀
  exact ⟨g', h1, trivial⟩

/-- C74, refutation: variants of enums. Whatever the runtime library does, their `Encode` returns nil and never bytes. -/
theorem C74_variants_encode_nothing (checked : Bool) (name : String) (lines : List String) (ds : List Ast.Definition) (f : File)
    (hf : FileTree checked name lines ds f) (e : Ast.Enum) (v : Ast.Variant) (he : .enum e ∈ ds) (hv : v ∈ e.variants) :
    ∃ enc, HasMethod f (upperCamel e.name.toList ++ ['_'] ++ upperCamel v.name.toList) "Encode".toList (bytesParam "w") enc ∧
      ∀ ρ recv arg vs recv', Returns ρ (bytesParam "w") enc recv [arg] vs recv' → vs = [.nil] := by
  obtain ⟨es, hes, hfile⟩ := hf
  obtain ⟨ret, gs, fs, _, hfs, _⟩ := item_of hes (.variant e v he hv)
  obtain ⟨gs, hi⟩ := variant_item hes he hv hfs
  obtain ⟨enc, size, dec, h1, h2, h3, m1, m2, m3⟩ := item_methods hfile hi
  exact ⟨_, m1, fun ρ recv arg vs recv' ⟨k, h⟩ => enc_any h1 h⟩

/-- C74, refutation: the end of a message. Whatever the runtime library does, a `Decode` without an error has consumed all the bytes
it was given, so that no struct can be followed by anything else. -/
theorem C74_decode_takes_everything (checked : Bool) (name : String) (lines : List String) (ds : List Ast.Definition) (f : File)
    (hf : FileTree checked name lines ds f) (x : Text) (gens : List String) (afs : Ast.Fields) (hi : GoBuild.Item ds x gens afs) :
    ∃ dec, HasMethod f x "Decode".toList (bytesParam "r") dec ∧
      ∀ ρ recv arg vs recv', Returns ρ (bytesParam "r") dec recv [arg] vs recv' →
        (∃ e, vs = [.nil, e] ∧ e ≠ .nil) ∨ vs = [.bytes [], .nil] ∨ vs = [.nil, .nil] := by
  obtain ⟨es, hes, hfile⟩ := hf
  obtain ⟨ret, gs, fs, hi, hfs, _⟩ := item_of hes hi
  obtain ⟨enc, size, dec, h1, h2, h3, m1, m2, m3⟩ := item_methods hfile hi
  exact ⟨_, m3, fun ρ recv arg vs recv' ⟨k, h⟩ => dec_any h3 h⟩

/-- C74, refutation: ids that are not those of fields. Whatever the runtime library does, `Decode` drops the id and nothing else:
what follows is read as the next id. That holds for fields of newer versions, whose values are read as ids, and for the end marker,
behind which reading goes on. -/
theorem C74_unknown_ids (checked : Bool) (name : String) (lines : List String) (ds : List Ast.Definition) (f : File)
    (hf : FileTree checked name lines ds f) (x : Text) (gens : List String) (afs : Ast.Fields) (hi : GoBuild.Item ds x gens afs)
    (fs : Fields) (hfs : simplifyFields checked afs = some fs) :
    ∃ dec, HasMethod f x "Decode".toList (bytesParam "r") dec ∧
      ∀ (ρ : Runtime) (m : Int), ρ.const "EndMarker".toList = some (.num m) →
        ∀ (r rest : List UInt8) (i : Nat), r ≠ [] → lib ρ "DecodeID".toList [] [] [.bytes r] = some [.bytes rest, .num i, .nil] →
          (∀ d ∈ fs.fields, d.id.toNat ≠ i) → ∀ g vs recv',
            (Returns ρ (bytesParam "r") dec (.obj x g) [.bytes r] vs recv' ↔
              Returns ρ (bytesParam "r") dec (.obj x g) [.bytes rest] vs recv') := by
  obtain ⟨es, hes, hfile⟩ := hf
  obtain ⟨ret, gs, fs', hi, hfs', _⟩ := item_of hes hi
  rw [hfs] at hfs'; injection hfs' with hfs'; subst hfs'
  obtain ⟨enc, size, dec, h1, h2, h3, m1, m2, m3⟩ := item_methods hfile hi
  exact ⟨_, m3, fun ρ m hm r rest i hr hd hne g vs recv' => dec_skip h3 hr hd hm hne vs recv'⟩

/-- C74, refutation: optional fields that are set. `Encode` writes the value behind the id, and `Decode` expects what the runtime
library writes for a pointer. If that is the byte 0 for nil, as in Rust, and a `u8` is written as one byte, then 0 is sent and nothing
is received, without an error. -/
theorem C74_set_options_lost (ρ : Runtime) (Leaf : Prim → Val → Prop) (tag : Nat → List UInt8) (hρ : Faithful ρ Leaf tag)
    (ho : FieldOptions ρ tag) (hu8 : ∀ w, lib ρ "EncodeU8".toList [] [] [.bytes w, .num 0] = some [.bytes (w ++ [0])])
    (hnil : ∀ t enc w, lib ρ "EncodeOption".toList [t] [enc] [.bytes w, .nil] = some [.bytes (w ++ [0])])
    (checked : Bool) (ds : List Ast.Definition) (name : String) (lines : List String) (f : File)
    (hf : FileTree checked name lines ds f) (s : Ast.Struct) (hs : .struct s ∈ ds) (fs : Fields)
    (hfs : simplifyFields checked s.fields = some fs) (d : Field) (hd : fs.fields = [d]) (hty : d.ty = .option (.prim .u8))
    (h0 : d.id.toNat ≠ 0) :
    ∃ enc dec, HasMethod f (upperCamel s.name.toList) "Encode".toList (bytesParam "w") enc ∧
      HasMethod f (upperCamel s.name.toList) "Decode".toList (bytesParam "r") dec ∧
      ∀ g, g (goName d) = .ptr (.num 0) → ∃ msg,
        Returns ρ (bytesParam "w") enc (.obj (upperCamel s.name.toList) g) [.bytes []] [.bytes msg] (.obj (upperCamel s.name.toList) g) ∧
        ∀ g₀, ∃ g', Returns ρ (bytesParam "r") dec (.obj (upperCamel s.name.toList) g₀) [.bytes msg] [.bytes [], .nil]
            (.obj (upperCamel s.name.toList) g') ∧ g' (goName d) = .nil := by
  obtain ⟨es, hes, hfile⟩ := hf
  obtain ⟨enc, size, dec, h1, h2, h3, m1, m2, m3⟩ := item_methods hfile (struct_item hes hs hfs)
  refine ⟨_, _, m1, m3, fun g hg => ?_⟩
  have hk : fs.kind ≠ .unit := fun h => by rw [simplifyFields_unitEmpty hfs h] at hd; cases hd
  refine ⟨tag d.id.toNat ++ ([0] ++ tag 0), ⟨0, enc_some_invoke hρ ho (p := .u8) (v := .num 0) hu8 hk hd hty hg h1 []⟩, fun g₀ => ?_⟩
  obtain ⟨bs, hc⟩ := codec hρ (.option (.prim .u8)) rfl .nil (.inl rfl)
  have hbs : bs = [0] := by
    have hl : lookup [(n "w", Val.bytes []), (n "x", Val.nil)] (n "w") = some (.bytes []) := by rw [lookup_cons, if_pos rfl]
    have hx : lookup [(n "w", Val.bytes []), (n "x", Val.nil)] (n "x") = some .nil := by
      rw [lookup_cons, if_neg (by decide), lookup_cons, if_pos rfl]
    have hb : lookup [(n "w", Val.bytes []), (n "x", Val.nil)] (n "buf") = none := by
      rw [lookup_cons, if_neg (by decide), lookup_cons, if_neg (by decide)]; rfl
    have he := hc.enc [(n "w", Val.bytes []), (n "x", Val.nil)] (var "x") _ [] rfl hb (.var hx) hl
    have he' := (value_call (ρ := ρ) (eval_inst hb _ _) (evalArgs_val (.var hl) (evalArgs_val (.var hx) (evalArgs_fn (evalArgs_nil _ _))))).symm.trans he
    have hn := hnil (named "uint8") (closure ρ [(n "w", Val.bytes []), (n "x", Val.nil)] [(n "w", byteSlice), (n "v", (named "uint8"))]
      (returns (.call (buf (n "Encode" ++ n (fnPrim .u8))) [var "w", var "v"]))) []
    have := hn.symm.trans he'
    simpa using this.symm
  subst hbs
  rw [← hty] at hc
  exact dec_one_invoke hρ hd h0 hc h3

/-- C74, refutation: what Go and Rust send. The functions of the package `buf` are called with the id of a field, but not with its
wire type. Whatever they do, a field of type `u8` and a field of type `u16` (or any two leaf types) with the same id and the same
bytes are therefore sent as the same message … -/
theorem C74_wire_types (ρ : Runtime) (hρ : FieldTyped ρ) (p q : Prim) (checked : Bool) (ds ds' : List Ast.Definition)
    (name name' : String) (lines lines' : List String) (f f' : File) (hf : FileTree checked name lines ds f)
    (hf' : FileTree checked name' lines' ds' f') (s s' : Ast.Struct) (hs : .struct s ∈ ds) (hs' : .struct s' ∈ ds')
    (fs fs' : Fields) (hfs : simplifyFields checked s.fields = some fs) (hfs' : simplifyFields checked s'.fields = some fs')
    (d d' : Field) (hd : fs.fields = [d]) (hd' : fs'.fields = [d']) (hp : d.ty = .prim p) (hq : d'.ty = .prim q)
    (hid : d.id = d'.id) (hn : goName d = goName d') :
    ∃ enc enc', HasMethod f (upperCamel s.name.toList) "Encode".toList (bytesParam "w") enc ∧
      HasMethod f' (upperCamel s'.name.toList) "Encode".toList (bytesParam "w") enc' ∧
      ∀ t g, (∀ w, lib ρ ("Encode".toList ++ (fnPrim p).toList) [] [] [.bytes w, g (goName d)] =
          lib ρ ("Encode".toList ++ (fnPrim q).toList) [] [] [.bytes w, g (goName d)]) →
        ∀ w vs recv', Returns ρ (bytesParam "w") enc (.obj t g) [.bytes w] vs recv' ↔
          Returns ρ (bytesParam "w") enc' (.obj t g) [.bytes w] vs recv' := by
  obtain ⟨es, hes, hfile⟩ := hf
  obtain ⟨enc, size, dec, h1, h2, h3, m1, m2, m3⟩ := item_methods hfile (struct_item hes hs hfs)
  obtain ⟨es', hes', hfile'⟩ := hf'
  obtain ⟨enc', size', dec', h1', h2', h3', m1', m2', m3'⟩ := item_methods hfile' (struct_item hes' hs' hfs')
  have hk : fs.kind ≠ .unit := fun h => by rw [simplifyFields_unitEmpty hfs h] at hd; cases hd
  have hk' : fs'.kind ≠ .unit := fun h => by rw [simplifyFields_unitEmpty hfs' h] at hd'; cases hd'
  refine ⟨_, _, m1, m1', fun t g hv w vs recv' => ?_⟩
  have := enc_same hρ hk hk' hd hd' hp hq hid hn h1 h1' (t := t) (g := g) hv
  exact exists_congr fun k => by rw [show invoke ρ k (bytesParam "w") _ _ _ = _ from this k w]; rfl

/-- … whereas in Rust they are different: the number 7 is one byte for both types, but the byte before it has the wire type in it. -/
theorem C74_wire_types_rust :
    Codegen.enc (Demo.envOf [(["S"], .struct ⟨.named, [⟨"a", .prim .u8, 1⟩]⟩)]) false (.ext ["S"] []) (.struct [.num 7]) = [10, 7, 0] ∧
    Codegen.enc (Demo.envOf [(["S"], .struct ⟨.named, [⟨"a", .prim .u16, 1⟩]⟩)]) false (.ext ["S"] []) (.struct [.num 7]) = [8, 7, 0] := by
  decide +kernel

/-! ### Examples -/

/-- There is a tree for these definitions. -/
theorem tree_of {name : String} {ds : List Ast.Definition} (h : (goProblems name ds).isSome = true) : ∃ f, FileTree true name [] ds f := by
  obtain ⟨ps, h⟩ := Option.isSome_iff_exists.1 h
  obtain ⟨f, h1, _⟩ := goProblems_tree h
  exact ⟨f, h1⟩

/-- A struct with several kinds of fields. -/
def goPlainFields : Ast.Fields := .named [
  { name := "age", ty := .nonZero (.prim .u8), id := none },
  { name := "keys", ty := .array (.prim .bytes) 3, id := some 7 },
  { name := "seen", ty := .hashMap (.prim .string) (.vec (.option (.prim .u16))), id := none }]

/-- Its definition. -/
def goPlain : List Ast.Definition := [.struct { name := "user", generics := [], fields := goPlainFields }]

/-- The fields as they are simplified. -/
def goPlainSimple : Fields := ⟨[⟨[], "age", .nonZero (.prim .u8), 1⟩, ⟨[], "keys", .array (.prim .bytes) 3, 7⟩,
  ⟨[], "seen", .hashMap (.prim .string) (.vec (.option (.prim .u16))), 8⟩], .named⟩

/-- C74_roundtrip_partial applies. -/
example : ∃ f, FileTree true "p" [] goPlain f ∧ ∃ enc size dec, HasMethod f "User".toList "Encode".toList (bytesParam "w") enc ∧
    HasMethod f "User".toList "Size".toList [] size ∧ HasMethod f "User".toList "Decode".toList (bytesParam "r") dec ∧
    ∀ g, (∀ d ∈ goPlainSimple.fields, Fits Witness.Leaf d.ty (g (goName d))) → ∃ msg, Transfers Witness.runtime "User".toList enc size dec g msg
      [.bytes [], .nil] (fun g' => ∀ d ∈ goPlainSimple.fields, g' (goName d) = g (goName d)) := by
  obtain ⟨f, hf⟩ := tree_of (show (goProblems "p" goPlain).isSome = true by decide +kernel)
  exact ⟨f, hf, C74_roundtrip_partial Witness.runtime Witness.Leaf Witness.unary Witness.faithful Witness.fieldOptions true ⟨[], goPlain⟩
    (by decide +kernel) goPlain .root "p" [] f hf _ (List.mem_singleton.2 rfl) goPlainSimple rfl
    ⟨by decide, by decide +kernel⟩ (by decide) (by decide)⟩

/-- Values for it. -/
def goPlainValues (y : Text) : GoRun.Val :=
  if y = "Age".toList then .nonZero (.num 3) else if y = "Keys".toList then .seq [.bytes [1], .bytes [], .bytes [2, 3]]
  else .map [(.text "a".toList, .seq [.nil, .ptr (.num 300)]), (.text [], .seq [])]

/-- They fit. -/
theorem goPlainValues_fit : ∀ d ∈ goPlainSimple.fields, Fits Witness.Leaf d.ty (goPlainValues (goName d)) := by
  intro d hd
  simp only [goPlainSimple, List.mem_cons, List.not_mem_nil, or_false] at hd
  rcases hd with rfl | rfl | rfl
  · exact ⟨.num 3, rfl, show Witness.Leaf .u8 (.num 3) from rfl, rfl⟩
  · refine ⟨[.bytes [1], .bytes [], .bytes [2, 3]], rfl, rfl, ?_⟩
    intro x hx
    simp only [List.mem_cons, List.not_mem_nil, or_false] at hx
    rcases hx with rfl | rfl | rfl <;> rfl
  · refine ⟨[(.text "a".toList, .seq [.nil, .ptr (.num 300)]), (.text [], .seq [])], rfl, by simp, ?_⟩
    intro x hx
    simp only [List.mem_cons, List.not_mem_nil, or_false] at hx
    rcases hx with rfl | rfl
    · refine ⟨rfl, [.nil, .ptr (.num 300)], rfl, ?_⟩
      intro x hx
      simp only [List.mem_cons, List.not_mem_nil, or_false] at hx
      rcases hx with rfl | rfl
      · exact .inl rfl
      · exact .inr ⟨.num 300, rfl, show Witness.Leaf .u16 (.num 300) from rfl⟩
    · exact ⟨rfl, [], rfl, by simp⟩

/-- C74_nil_options_fail applies to the struct of `goSample`: the field `tags` is optional. -/
example : ∃ f, FileTree true "p" [] goSample f ∧ ∃ enc size dec, HasMethod f "User".toList "Encode".toList (bytesParam "w") enc ∧
    HasMethod f "User".toList "Size".toList [] size ∧ HasMethod f "User".toList "Decode".toList (bytesParam "r") dec ∧
    ∀ g, g "Tags".toList = .nil → Fits Witness.Leaf (.nonZero (.prim .u8)) (g "Age".toList) →
      Fits Witness.Leaf (.array (.prim .bytes) 3) (g "Keys".toList) →
      ∃ msg, Transfers Witness.runtime "User".toList enc size dec g msg [.nil, missingField 7 "tags".toList] (fun _ => True) := by
  obtain ⟨f, hf⟩ := tree_of (show (goProblems "p" goSample).isSome = true by decide +kernel)
  obtain ⟨enc, size, dec, m1, m2, m3, h⟩ := C74_nil_options_fail Witness.runtime Witness.Leaf Witness.unary Witness.faithful
    Witness.fieldOptions true ⟨[], goSample⟩ (by decide +kernel) goSample .root "p" [] f hf _ List.mem_cons_self
    ⟨[⟨[], "age", .nonZero (.prim .u8), 1⟩, ⟨[], "tags", .option (.vec (.hashMap (.prim .string) (.hashSet (.prim .u16)))), 7⟩,
      ⟨[], "keys", .array (.prim .bytes) 3, 8⟩], .named⟩ rfl
    ⟨by decide, by decide +kernel⟩ (by decide) [_] _ [_] rfl rfl (by decide)
  refine ⟨f, hf, enc, size, dec, m1, m2, m3, fun g h1 h2 h3 => h g ⟨?_, ?_⟩⟩
  · intro d hd ho
    simp only [List.mem_cons, List.not_mem_nil, or_false] at hd
    rcases hd with rfl | rfl | rfl
    · cases ho
    · exact h1
    · cases ho
  · intro d hd ho
    simp only [List.mem_cons, List.not_mem_nil, or_false] at hd
    rcases hd with rfl | rfl | rfl
    · exact h2
    · cases ho
    · exact h3

/-- C74_variants_encode_nothing applies to the variants of `goSample`. -/
example : ∃ f, FileTree true "p" [] goSample f ∧ ∃ enc, HasMethod f "Shape_Circle".toList "Encode".toList (bytesParam "w") enc ∧
    ∀ ρ recv arg vs recv', Returns ρ (bytesParam "w") enc recv [arg] vs recv' → vs = [.nil] := by
  obtain ⟨f, hf⟩ := tree_of (show (goProblems "p" goSample).isSome = true by decide +kernel)
  exact ⟨f, hf, C74_variants_encode_nothing true "p" [] goSample f hf _ _ (List.mem_cons_of_mem _ List.mem_cons_self)
    (List.mem_cons_of_mem _ List.mem_cons_self)⟩

/-- C74_set_options_lost applies. -/
example : ∃ f, FileTree true "p" [] [oneField "a" (.option (.prim .u8))] f ∧
    ∃ enc dec, HasMethod f "Sample".toList "Encode".toList (bytesParam "w") enc ∧
      HasMethod f "Sample".toList "Decode".toList (bytesParam "r") dec ∧
      ∀ g, g "A".toList = .ptr (.num 0) → ∃ msg,
        Returns Witness.runtime (bytesParam "w") enc (.obj "Sample".toList g) [.bytes []] [.bytes msg] (.obj "Sample".toList g) ∧
        ∀ g₀, ∃ g', Returns Witness.runtime (bytesParam "r") dec (.obj "Sample".toList g₀) [.bytes msg] [.bytes [], .nil]
            (.obj "Sample".toList g') ∧ g' "A".toList = .nil := by
  obtain ⟨f, hf⟩ := tree_of (show (goProblems "p" [oneField "a" (.option (.prim .u8))]).isSome = true by decide +kernel)
  exact ⟨f, hf, C74_set_options_lost Witness.runtime Witness.Leaf Witness.unary Witness.faithful
    Witness.fieldOptions (fun w => rfl) (fun t enc w => rfl) true _ "p" [] f hf _ (List.mem_singleton.2 rfl)
    ⟨[⟨[], "a", .option (.prim .u8), 1⟩], .named⟩ rfl _ rfl rfl (by decide)⟩

/-- C74_wire_types applies: in a runtime library where the numbers are written alike. -/
example : FieldTyped Witness.runtime ∧ ∃ f f', FileTree true "p" [] [oneField "a" (.prim .u32)] f ∧ FileTree true "p" [] [oneField "a" (.prim .u16)] f' ∧
    ∃ enc enc', HasMethod f "Sample".toList "Encode".toList (bytesParam "w") enc ∧
      HasMethod f' "Sample".toList "Encode".toList (bytesParam "w") enc' ∧
      ∀ g w vs recv', Returns Witness.runtime (bytesParam "w") enc (.obj "Sample".toList g) [.bytes w] vs recv' ↔
        Returns Witness.runtime (bytesParam "w") enc' (.obj "Sample".toList g) [.bytes w] vs recv' := by
  have ht : FieldTyped Witness.runtime := fun f g w id h => h (w ++ Witness.unary id.toNat)
  obtain ⟨f, hf⟩ := tree_of (show (goProblems "p" [oneField "a" (.prim .u32)]).isSome = true by decide +kernel)
  obtain ⟨f', hf'⟩ := tree_of (show (goProblems "p" [oneField "a" (.prim .u16)]).isSome = true by decide +kernel)
  obtain ⟨enc, enc', m, m', h⟩ := C74_wire_types Witness.runtime ht .u32 .u16 true _ _ "p" "p" [] [] f f' hf hf' _ _
    (List.mem_singleton.2 rfl) (List.mem_singleton.2 rfl) ⟨[⟨[], "a", .prim .u32, 1⟩], .named⟩ ⟨[⟨[], "a", .prim .u16, 1⟩], .named⟩ rfl rfl
    _ _ rfl rfl rfl rfl rfl rfl
  exact ⟨ht, f, f', hf, hf', enc, enc', m, m', fun g w vs recv' => h _ g (fun w => rfl) w vs recv'⟩

/-- C74_unknown_ids applies: the id 2 is no field. -/
example : ∃ f, FileTree true "p" [] [oneField "a" (.prim .u8)] f ∧ ∃ dec, HasMethod f "Sample".toList "Decode".toList (bytesParam "r") dec ∧
    ∀ rest g vs recv', Returns Witness.runtime (bytesParam "r") dec (.obj "Sample".toList g) [.bytes (Witness.unary 2 ++ rest)] vs recv' ↔
      Returns Witness.runtime (bytesParam "r") dec (.obj "Sample".toList g) [.bytes rest] vs recv' := by
  obtain ⟨f, hf⟩ := tree_of (show (goProblems "p" [oneField "a" (.prim .u8)]).isSome = true by decide +kernel)
  obtain ⟨dec, m, h⟩ := C74_unknown_ids true "p" [] _ f hf _ _ _ (.struct _ (List.mem_singleton.2 rfl)) ⟨[⟨[], "a", .prim .u8, 1⟩], .named⟩ rfl
  exact ⟨f, hf, dec, m, fun rest g vs recv' => h Witness.runtime 0 rfl _ rest 2 (by simp [Witness.unary]) (Witness.faithful.decodeId 2 rest)
    (by decide) g vs recv'⟩

end Mabo.Props
