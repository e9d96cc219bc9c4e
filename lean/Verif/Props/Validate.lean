import Verif.Compiler.GeneratorLemmas
import Verif.Props.RoundTrip
/-!
C24–C31: numbering, validation, simplification and the generator's demands, for every schema.
The specification is in `Spec/Compiler.lean`, `Spec/Simplify.lean` and `Spec/Generator.lean`.
-/
namespace Mabo.Props
open Mabo.Ast Mabo.Spec Mabo.Compiler Mabo.Generator
open Mabo.Simplify (simplifySchema simplifyFields simplifyDefinition simplifyFields_spec simplifyDefinition_spec
  simplifyDefinitions_spec okDef okDefs_iff)

/-! ### A schema used as example

```
/// comment
struct Address<T> { street: string, tag: T @5, more: vec<T> }
mod geo {
  use other::Thing;
  enum Shape { Nothing, Circle(u32) @7, Rect { w: u32, h: (u8, u16) } }
  mod inner { struct Empty }
}
type Alias = hash_map<string, (u8, u8)>;
const LIMIT: u32 = 5;
```
-/

/-- The example. -/
def sample : Ast.Schema := {
  definitions := [
    .struct { comment := ["comment"], name := "Address", generics := ["T"],
              fields := .named [{ name := "street", ty := .prim .string, id := none },
                { name := "tag", ty := .external [] "T" [] false, id := some 5 },
                { name := "more", ty := .vec (.external [] "T" [] false), id := none }] },
    .module [] "geo" [
      .import { segments := ["other"], element := some "Thing" },
      .enum { name := "Shape", generics := [],
              variants := [{ name := "Nothing", fields := .unit, id := none },
                { name := "Circle", fields := .unnamed [{ ty := .prim .u32, id := none }], id := some 7 },
                { name := "Rect", id := none,
                  fields := .named [{ name := "w", ty := .prim .u32, id := none },
                    { name := "h", ty := .tuple [.prim .u8, .prim .u16] false, id := none }] }] },
      .module [] "inner" [.struct { name := "Empty", generics := [], fields := .unit }]],
    .typeAlias { name := "Alias", generics := [], target := .hashMap (.prim .string) (.tuple [.prim .u8, .prim .u8] true) },
    .const { name := "LIMIT", ty := .prim .u32, value := .int 5 }] }

theorem sample_valid : validateSchema true sample = .ok := by decide +kernel

/-! ### C24: numbering -/

/-- C24. For every list of explicit and omitted numbers there is exactly one assignment following the rules of
`Assigned`: explicit ones kept, the first omitted one 1, every other omitted one the successor of its predecessor. -/
theorem C24_assignment_unique (given : List (Option (BitVec 32))) :
    ∃ ids, Assigned given ids ∧ ∀ ids', Assigned given ids' → ids' = ids :=
  ⟨_, assigned_assignFrom given, fun _ h => assigned_iff.1 h⟩

/-- C24. The numbers of the fields the code generators get are the assigned ones — those of which validation says
(`C25_exact`) that they are distinct. -/
theorem C24_generated_field_ids (checked : Bool) (fs : Ast.Fields) (gs : Simplify.Fields)
    (h : simplifyFields checked fs = some gs) : Assigned (givenIds fs) (gs.fields.map (·.id)) := by
  have ⟨h1, h2⟩ := simplifyFields_spec checked fs
  by_cases hc : checked = true → NoOverflow (givenIds fs)
  · have ⟨gs', hg, hs⟩ := h1 hc
    rw [h, Option.some.injEq] at hg
    subst hg
    cases hs with
    | named _ _ _ ha => exact ha
    | unnamed _ _ _ ha => exact ha
    | unit => exact ⟨rfl, by simp [givenIds], by simp [givenIds], by simp [givenIds]⟩
  · rw [h2 hc] at h; cases h

/-- C24. Likewise for variants. -/
theorem C24_generated_variant_ids (checked : Bool) (e : Ast.Enum) (d : Simplify.Definition)
    (h : simplifyDefinition checked (.enum e) = some d) :
    ∃ vs, d = .enum ⟨e.comment, e.name, e.generics, vs⟩ ∧ Assigned (e.variants.map (·.id)) (vs.map (·.id)) := by
  have ⟨h1, h2⟩ := simplifyDefinition_spec checked (.enum e)
  by_cases hc : okDef checked (.enum e)
  · have ⟨d', hd, hs⟩ := h1 hc
    rw [h, Option.some.injEq] at hd
    subst hd
    cases hs with
    | enum _ _ ha _ => exact ⟨_, rfl, ha⟩
  · rw [h2 hc] at h; cases h

/-- 1, 5, 6. -/
example : Assigned [none, some 5, none] [1, 5, 6] := assigned_iff.2 (by decide)

/-- C24, the end of the number range: with overflow checks, validation panics only if some assigned number is
`u32::MAX`, and on a schema that has such a number it never succeeds. -/
theorem C24_panic_only_at_max (checked : Bool) (s : Ast.Schema) (h : validateSchema checked s = .panic) :
    checked = true ∧ ∃ d l ids id, Occurs s d ∧ IdList d l ∧ Assigned l ids ∧ id ∈ ids ∧ id.toNat = 2 ^ 32 - 1 := by
  have key : ∀ d, Occurs s d → localCheck checked d = .panic → checked = true ∧
      ∃ d l ids id, Occurs s d ∧ IdList d l ∧ Assigned l ids ∧ id ∈ ids ∧ id.toNat = 2 ^ 32 - 1 := by
    intro d hd hl
    have ⟨hc, l, hl, hn⟩ := localCheck_panic hl
    refine ⟨hc, d, l, ?_⟩
    exact Classical.byContradiction fun hno => hn fun ids ha id hid hmax => hno ⟨ids, id, hd, hl, ha, hid, hmax⟩
  rcases validateSchema_fail (by simp) h with h | ⟨d, hd, hl⟩
  · exact absurd (mapErr_panic.1 h) validateNamesInModule_panic
  · exact key d hd hl

/-- Such a panic does happen. -/
example : validateSchema true ⟨[], [.struct
    { name := "S", generics := [], fields := .unnamed [{ ty := .prim .u8, id := some 4294967295 }] }]⟩ = .panic := by decide +kernel

/-! ### C25–C28: what validation accepts -/

/-- C25–C28 together: validation accepts exactly the schemas in which numbers and names are unique in their scope,
type parameters are unique and used, and tuples have two to twelve elements (`ValidSchema`); with overflow checks on,
additionally no number is `u32::MAX`. -/
theorem C25_validate_exact (checked : Bool) (s : Ast.Schema) :
    validateSchema checked s = .ok ↔ ValidSchema s ∧ (checked = true → NoIdOverflow s) :=
  validateSchema_valid

example : ValidSchema sample := ((C25_validate_exact true sample).1 sample_valid).1

/-- C25. Two equal numbers in one field list or one list of variants, at any depth of modules, are always rejected. -/
theorem C25_duplicate_ids_rejected (checked : Bool) (s : Ast.Schema) (d : Definition) (l : List (Option (BitVec 32)))
    (ids : List (BitVec 32)) (hd : Occurs s d) (hl : IdList d l) (ha : Assigned l ids) (hdup : ¬ ids.Nodup) :
    validateSchema checked s ≠ .ok :=
  fun h => hdup (((C25_validate_exact checked s).1 h).1.ids d hd l hl ids ha)

/-- `struct S(u8 @2, u8 @1, u8)`: the omitted number is 2, a duplicate. -/
example : validateSchema true ⟨[], [.struct
    { name := "S", generics := [], fields := .unnamed [⟨.prim .u8, some 2⟩, ⟨.prim .u8, some 1⟩, ⟨.prim .u8, none⟩] }]⟩
      = .err (.duplicateId (.unnamed 2 3 1)) := by decide +kernel

/-- The numbers before a position do not repeat: what an error about a field or variant means. -/
theorem clash_of {ids : List (BitVec 32)} {i j : Nat} {id : BitVec 32} (hj : j < i) (h1 : ids[i]? = some id)
    (h2 : ids[j]? = some id) (h3 : (ids.take i).Nodup) : Clash ids i j id := ⟨hj, h1, h2, h3⟩

theorem fieldIds_err_real {checked : Bool} {fs : Ast.Fields} {e : DuplicateId}
    (h : validateFieldIds checked fs = .err e) :
    match e with
    | .variant _ _ _ => False
    | .named id name other => ∃ l tr ids i j f g, fs = .named l tr ∧ Assigned (l.map (·.id)) ids ∧
        Clash ids i j id ∧ l[i]? = some f ∧ l[j]? = some g ∧ f.name = name ∧ g.name = other
    | .unnamed id pos other => ∃ l tr ids i j, fs = .unnamed l tr ∧ Assigned (l.map (·.id)) ids ∧
        Clash ids i j id ∧ pos = i + 1 ∧ other = j + 1 := by
  cases fs with
  | named fs tr =>
    have ⟨i, j, f, g, id, hf, hg, hj, he, h1, h2, h3⟩ := namedIds_err h
    subst he
    exact ⟨fs, tr, _, i, j, f, g, rfl, assigned_assignFrom _, clash_of hj h1 h2 h3, hf, hg, rfl, rfl⟩
  | unnamed fs tr =>
    have ⟨i, j, id, _, hj, he, h1, h2, h3⟩ := unnamedIds_err h
    subst he
    exact ⟨fs, tr, _, i, j, rfl, assigned_assignFrom _, clash_of hj h1 h2 h3, rfl, rfl⟩
  | unit => cases h

/-- C25. A reported duplicate number is real and is the first one in its list: the error gives the number, and the
names (or 1-based positions) of the element that repeats it and of the one that had it before. -/
theorem C25_reported_clash (checked : Bool) (s : Ast.Schema) (e : DuplicateId)
    (h : validateSchema checked s = .err (.duplicateId e)) :
    match e with
    | .variant id name other => ∃ en ids i j v w, Occurs s (.enum en) ∧ Assigned (en.variants.map (·.id)) ids ∧
        Clash ids i j id ∧ en.variants[i]? = some v ∧ en.variants[j]? = some w ∧ v.name = name ∧ w.name = other
    | .named id name other => ∃ d l tr ids i j f g, Occurs s d ∧ FieldsOf d (.named l tr) ∧
        Assigned (l.map (·.id)) ids ∧ Clash ids i j id ∧ l[i]? = some f ∧ l[j]? = some g ∧ f.name = name ∧ g.name = other
    | .unnamed id pos other => ∃ d l tr ids i j, Occurs s d ∧ FieldsOf d (.unnamed l tr) ∧
        Assigned (l.map (·.id)) ids ∧ Clash ids i j id ∧ pos = i + 1 ∧ other = j + 1 := by
  have fromFields : ∀ d fs, Occurs s d → FieldsOf d fs → validateFieldIds checked fs = .err e →
      match e with
      | .variant id name other => ∃ en ids i j v w, Occurs s (.enum en) ∧ Assigned (en.variants.map (·.id)) ids ∧
          Clash ids i j id ∧ en.variants[i]? = some v ∧ en.variants[j]? = some w ∧ v.name = name ∧ w.name = other
      | .named id name other => ∃ d l tr ids i j f g, Occurs s d ∧ FieldsOf d (.named l tr) ∧
          Assigned (l.map (·.id)) ids ∧ Clash ids i j id ∧ l[i]? = some f ∧ l[j]? = some g ∧ f.name = name ∧ g.name = other
      | .unnamed id pos other => ∃ d l tr ids i j, Occurs s d ∧ FieldsOf d (.unnamed l tr) ∧
          Assigned (l.map (·.id)) ids ∧ Clash ids i j id ∧ pos = i + 1 ∧ other = j + 1 := by
    intro d fs hd hf he
    have := fieldIds_err_real he
    cases e with
    | variant => exact this.elim
    | named id name other =>
      obtain ⟨l, tr, ids, i, j, f, g, rfl, rest⟩ := this
      exact ⟨d, l, tr, ids, i, j, f, g, hd, hf, rest⟩
    | unnamed id pos other =>
      obtain ⟨l, tr, ids, i, j, rfl, rest⟩ := this
      exact ⟨d, l, tr, ids, i, j, hd, hf, rest⟩
  rcases validateSchema_fail (by simp) h with h | ⟨d, hd, hl⟩
  · have ⟨_, _, h⟩ := mapErr_err.1 h; cases h
  · rcases localCheck_idErr hl with ⟨fs, hf, he⟩ | ⟨en, rfl, he⟩
    · exact fromFields d fs hd hf he
    · rcases variantIds_err he with ⟨v, hv, he⟩ | ⟨i, j, v, w, id, hv, hw, hj, he, h1, h2, h3⟩
      · exact fromFields _ _ hd (.variant en v hv) he
      · subst he
        exact ⟨en, _, i, j, v, w, hd, assigned_assignFrom _, clash_of hj h1 h2 h3, hv, hw, rfl, rfl⟩

/-- C26. Two definitions introducing the same name into one scope are rejected … -/
theorem C26_scope_names_rejected (checked : Bool) (s : Ast.Schema) (ds : List Definition) (hs : Scope s ds)
    (hdup : ¬ (ds.flatMap introduced).Nodup) : validateSchema checked s ≠ .ok :=
  fun h => hdup (((C25_validate_exact checked s).1 h).1.names.scopes ds hs)

/-- … as are two fields or two variants of one name. -/
theorem C26_member_names_rejected (checked : Bool) (s : Ast.Schema) (d : Definition) (hd : Occurs s d)
    (hdup : (∃ fs, FieldsOf d fs ∧ ¬ (fieldNamesOf fs).Nodup) ∨
      ∃ e, d = .enum e ∧ ¬ (e.variants.map (·.name)).Nodup) : validateSchema checked s ≠ .ok := by
  intro h
  have hn := ((C25_validate_exact checked s).1 h).1.names
  rcases hdup with ⟨fs, hf, hdup⟩ | ⟨e, rfl, hdup⟩
  · exact hdup (hn.fields d hd fs hf)
  · exact hdup (hn.variants e hd)

/-- C26. A reported duplicate name is real, and the first one in its list. -/
theorem C26_reported_name (checked : Bool) (s : Ast.Schema) (e : DuplicateName)
    (h : validateSchema checked s = .err (.duplicateName e)) :
    match e with
    | .field n => ∃ d fs, Occurs s d ∧ FieldsOf d fs ∧ Twice (fieldNamesOf fs) n
    | .variant n => ∃ en, Occurs s (.enum en) ∧ Twice (en.variants.map (·.name)) n
    | .inModule n => ∃ ds, Scope s ds ∧ Twice (ds.flatMap introduced) n := by
  rcases validateSchema_fail (by simp) h with h | ⟨d, hd, hl⟩
  · have ⟨_, h, h'⟩ := mapErr_err.1 h; cases h'
    obtain ⟨n, rfl, ht⟩ := validateNamesInModule_err h
    exact ⟨_, .root, ht⟩
  · rcases localCheck_nameErr hl with ⟨fs, n, hf, rfl, ht⟩ | ⟨en, n, rfl, rfl, ht⟩ | ⟨c, m, ds, n, rfl, rfl, ht⟩
    · exact ⟨d, fs, hd, hf, ht⟩
    · exact ⟨en, hd, ht⟩
    · exact ⟨ds, scope_iff.2 (.inr ⟨c, m, hd⟩), ht⟩

/-- An import clashing with a struct in an inner module. -/
example : validateSchema true ⟨[], [.module [] "m" [.import ⟨["a", "X"], none⟩,
    .struct { name := "X", generics := [], fields := .unit }]]⟩ = .err (.duplicateName (.inModule "X")) := by decide +kernel

/-- C27. A definition with a repeated or unused type parameter is rejected. -/
theorem C27_generics_rejected (checked : Bool) (s : Ast.Schema) (d : Definition) (hd : Occurs s d)
    (hbad : ¬ (typeParams d).Nodup ∨ ∃ g ∈ typeParams d, ¬ Used d g) : validateSchema checked s ≠ .ok := by
  intro h
  have hg := ((C25_validate_exact checked s).1 h).1.generics d hd
  rcases hbad with hbad | ⟨g, hm, hbad⟩
  · exact hbad hg.1
  · exact hbad (hg.2 g hm)

/-- C27. A reported parameter is really repeated, or really declared and not used. -/
theorem C27_reported_generic (checked : Bool) (s : Ast.Schema) (e : InvalidGeneric)
    (h : validateSchema checked s = .err (.invalidGeneric e)) :
    match e with
    | .duplicate n => ∃ d, Occurs s d ∧ Twice (typeParams d) n
    | .unused n => ∃ d, Occurs s d ∧ n ∈ typeParams d ∧ ¬ Used d n := by
  rcases validateSchema_fail (by simp) h with h | ⟨d, hd, hl⟩
  · have ⟨_, _, h⟩ := mapErr_err.1 h; cases h
  · rcases localCheck_genericErr hl with ⟨n, rfl, ht⟩ | ⟨n, hn, rfl, hu⟩
    · exact ⟨d, hd, ht⟩
    · exact ⟨d, hd, hn, hu⟩

/-- `struct S<T>(non_zero<T>)`: the parameter counts as unused. -/
example : validateSchema true ⟨[], [.struct
    { name := "S", generics := ["T"], fields := .unnamed [⟨.nonZero (.external [] "T" [] false), none⟩] }]⟩ = .err (.invalidGeneric (.unused "T")) := by
  decide +kernel

/-- C28. A tuple of fewer than two or more than twelve elements, outside `non_zero`, in any field, alias or constant,
is rejected. -/
theorem C28_tuples_rejected (checked : Bool) (s : Ast.Schema) (d : Definition) (t : DataType) (ts : List DataType)
    (tr : Bool) (hd : Occurs s d) (ht : DefType d t) (hp : Part (.tuple ts tr) t) (hn : ts.length < 2 ∨ 12 < ts.length) :
    validateSchema checked s ≠ .ok := by
  intro h
  have := ((C25_validate_exact checked s).1 h).1.tuples d hd t ht ts tr hp
  omega

/-- C28. A reported tuple exists and its size is the reported problem. -/
theorem C28_reported_tuple (checked : Bool) (s : Ast.Schema) (e : TupleSize)
    (h : validateSchema checked s = .err (.tupleSize e)) :
    ∃ d t ts tr, Occurs s d ∧ DefType d t ∧ Part (.tuple ts tr) t ∧
      match e with
      | .empty => ts.length = 0
      | .single => ts.length = 1
      | .tooLarge => 12 < ts.length := by
  rcases validateSchema_fail (by simp) h with h | ⟨d, hd, hl⟩
  · have ⟨_, _, h⟩ := mapErr_err.1 h; cases h
  · have ⟨t, ts, tr, ht, hp, he⟩ := localCheck_tupleErr hl
    refine ⟨d, t, ts, tr, hd, ht, hp, ?_⟩
    unfold tupleProblem at he
    split at he
    · cases he; assumption
    · split at he
      · cases he; assumption
      · split at he
        · cases he; assumption
        · cases he

/-! ### C29: what the generator needs -/

/-- C29. The generator finishes exactly on the `Supported` schemas, whether or not they were validated. -/
theorem C29_generator_exact (checked : Bool) (s : Ast.Schema) (t : Simplify.Schema)
    (h : simplifySchema checked s = some t) : compileOk t = true ↔ Supported s := compileOk_iff h

/-- C29 (partial: the full claim, without `NonZeroChecked`, is refuted below). A schema accepted by validation in which
`non_zero` is only applied to types it is defined for, tuples inside `non_zero` have two to twelve elements and
constants have constant types is translated without hitting any `todo!` or `panic!`. -/
theorem C29_validated_compiles_partial (checked : Bool) (s : Ast.Schema) (t : Simplify.Schema)
    (hv : validateSchema checked s = .ok) (hn : NonZeroChecked s) (h : simplifySchema checked s = some t) :
    compileOk t = true := by
  rw [C29_generator_exact checked s t h]
  have hv := ((C25_validate_exact checked s).1 hv).1
  refine ⟨fun d hd fs hf u hu => ?_, fun a ha => hn.nonZero _ ha _ (.alias a), hn.consts⟩
  have hdt : DefType d u := .field hf hu
  refine ⟨hn.nonZero d hd u hdt, fun ts tr hp => ?_⟩
  rcases ownPiece_part hp with hp | ⟨a, ha, hp⟩
  · exact hv.tuples d hd u hdt ts tr hp
  · exact hn.inner d hd u hdt a ha ts tr hp

/-- Refutation of the full C29: accepted, but the generator runs into `todo!`. `struct S(non_zero<bool>)`. -/
theorem C29_fails_for_non_zero : ∃ s t, validateSchema true s = .ok ∧ simplifySchema true s = some t ∧
    compileOk t = false :=
  ⟨⟨[], [.struct { name := "S", generics := [], fields := .unnamed [⟨.nonZero (.prim .bool), none⟩] }]⟩, _,
    by decide +kernel, rfl, by decide +kernel⟩

/-- Likewise a tuple of one element inside `non_zero`. -/
theorem C29_fails_for_hidden_tuple : ∃ s t, validateSchema true s = .ok ∧ simplifySchema true s = some t ∧
    compileOk t = false :=
  ⟨⟨[], [.struct
    { name := "S", generics := [], fields := .unnamed [⟨.nonZero (.vec (.tuple [.prim .u8] false)), none⟩] }]⟩, _,
    by decide +kernel, rfl, by decide +kernel⟩

/-- Likewise a constant of a type that is no constant type. -/
theorem C29_fails_for_const : ∃ s t, validateSchema true s = .ok ∧ simplifySchema true s = some t ∧
    compileOk t = false :=
  ⟨⟨[], [.const { name := "X", ty := .prim .boxString, value := .string "x" }]⟩, _, by decide +kernel, rfl,
    by decide +kernel⟩

example : ∃ t, simplifySchema true sample = some t ∧ compileOk t = true := ⟨_, rfl, by decide +kernel⟩

/-! ### C30: numbers on the wire -/

/-- All assigned numbers can be written in a field header and differ from the end marker. -/
def WireIds (l : List (Option (BitVec 32))) : Prop := ∀ ids, Assigned l ids → ∀ id ∈ ids, idOk id

theorem assignFrom_bound : ∀ (l : List (Option (BitVec 32))) (g : BitVec 32), 0 < g.toNat →
    g.toNat + l.length ≤ 2 ^ 29 → (∀ n, some n ∈ l → 0 < n.toNat ∧ n.toNat + l.length ≤ 2 ^ 29) →
    ∀ id ∈ assignFrom g l, idOk id
  | [], _, _, _, _, id, h => by simp [assignFrom] at h
  | o :: l, g, h0, hg, hn, id, h => by
    rw [assignFrom_cons] at h
    have ho : 0 < (o.getD g).toNat ∧ (o.getD g).toNat + (l.length + 1) ≤ 2 ^ 29 := by
      cases o with
      | none => exact ⟨h0, hg⟩
      | some n => exact hn n (by simp)
    have h1 : (o.getD g + 1).toNat = (o.getD g).toNat + 1 := by
      rw [BitVec.toNat_add]
      have : (1 : BitVec 32).toNat = 1 := rfl
      rw [this, Nat.mod_eq_of_lt]
      omega
    rcases List.mem_cons.1 h with rfl | h
    · exact ⟨ho.1, by omega⟩
    · refine assignFrom_bound l _ (by omega) (by omega) (fun n hn' => ?_) id h
      have := hn n (by simp [hn'])
      simp only [List.length_cons] at this
      exact ⟨this.1, by omega⟩

/-- C30 (partial: accepted numbers need not be representable, see below). If the explicit numbers of a list are
positive and leave room for its length below `2^29`, then all its numbers, explicit or omitted, are positive and below
`2^29`. -/
theorem C30_wire_ids_partial (l : List (Option (BitVec 32)))
    (h : ∀ n, some n ∈ l → 0 < n.toNat ∧ n.toNat + l.length ≤ 2 ^ 29) (hl : l.length < 2 ^ 29) : WireIds l := by
  intro ids ha id hid
  rw [assigned_iff] at ha
  subst ha
  exact assignFrom_bound l 1 (by decide) (by show 1 + l.length ≤ 2 ^ 29; omega) h id hid

example : WireIds [none, some 5, none] := C30_wire_ids_partial _ (by simp) (by decide)

/-- In particular a list without explicit numbers. -/
theorem C30_implicit_ids (n : Nat) (hn : n < 2 ^ 29) : WireIds (List.replicate n none) :=
  C30_wire_ids_partial _ (by simp [List.mem_replicate]) (by simpa using hn)

/-- Refutation of the full C30: the number 0, which is the end marker, is accepted … -/
theorem C30_fails_zero : ∃ s, validateSchema true s = .ok ∧ ∃ d l, Occurs s d ∧ IdList d l ∧ ¬ WireIds l := by
  refine ⟨⟨[], [.struct { name := "S", generics := [], fields := .unnamed [⟨.prim .u8, some 0⟩] }]⟩,
    by decide +kernel, _, _, ⟨_, .root, List.mem_singleton.2 rfl⟩, .fields (.struct _), fun h => ?_⟩
  have := h [0] (assigned_iff.2 (by decide)) 0 (by simp)
  exact absurd this.1 (by decide)

/-- … and so is `2^29`, which does not survive packing. -/
theorem C30_fails_large : ∃ s, validateSchema true s = .ok ∧ ∃ d l, Occurs s d ∧ IdList d l ∧ ¬ WireIds l := by
  refine ⟨⟨[], [.struct { name := "S", generics := [], fields := .unnamed [⟨.prim .u8, some 536870912⟩] }]⟩,
    by decide +kernel, _, _, ⟨_, .root, List.mem_singleton.2 rfl⟩, .fields (.struct _), fun h => ?_⟩
  have := h [536870912] (assigned_iff.2 (by decide)) 536870912 (by simp)
  exact absurd this.2 (by decide)

/-- The error of a result, if it is one. -/
def errOf {α : Type} : Buf.Res α → Option Buf.Error
  | .err e => some e
  | _ => none

theorem errOf_eq {α : Type} {r : Buf.Res α} {e : Buf.Error} (h : errOf r = some e) : r = .err e := by
  cases r <;> simp_all [errOf]

/-- The consequence: no value of `struct S(u8 @0)` can be read back, its own encoding decodes to an error. -/
theorem C30_zero_breaks_round_trip (b : Nat) (hb : b < 256) :
    let env := Demo.envOf [(["S"], .struct ⟨.unnamed, [⟨"n0", .prim .u8, 0⟩]⟩)]
    Schema.wt env (.ext ["S"] []) (.struct [.num b]) = true ∧
    Codegen.decode env false (.ext ["S"] []) (Codegen.enc env false (.ext ["S"] []) (.struct [.num b])) =
      .err (.missingField 0 none) := by
  have key : ∀ b : Fin 256, Schema.wt (Demo.envOf [(["S"], .struct ⟨.unnamed, [⟨"n0", .prim .u8, 0⟩]⟩)])
        (.ext ["S"] []) (.struct [.num b.val]) = true ∧
      errOf (Codegen.decode (Demo.envOf [(["S"], .struct ⟨.unnamed, [⟨"n0", .prim .u8, 0⟩]⟩)])
        false (.ext ["S"] []) (Codegen.enc (Demo.envOf [(["S"], .struct ⟨.unnamed, [⟨"n0", .prim .u8, 0⟩]⟩)]) false
          (.ext ["S"] []) (.struct [.num b.val]))) = some (.missingField 0 none) := by decide +kernel
  exact ⟨(key ⟨b, hb⟩).1, errOf_eq (key ⟨b, hb⟩).2⟩

/-! ### C31: simplification -/

/-- C31. Simplification succeeds on every schema unless overflow checks are on and some number is `u32::MAX`, and its
result says the same as the schema (`SameSchema`: same definitions, fields and variants in the same order with the same
names, comments, type parameters, types and values, assigned numbers, and distinct names for unnamed fields). -/
theorem C31_simplify (checked : Bool) (s : Ast.Schema) (h : checked = true → NoIdOverflow s) :
    ∃ t, simplifySchema checked s = some t ∧ SameSchema s t := by
  have ⟨es, he, hs⟩ := (simplifyDefinitions_spec checked s.definitions).1 (okDefs_iff.2 h)
  exact ⟨⟨s.comment, es⟩, by simp [simplifySchema, he], rfl, hs⟩

/-- C31. Conversely, it panics in that case. -/
theorem C31_simplify_panics (checked : Bool) (s : Ast.Schema) (h : ¬ (checked = true → NoIdOverflow s)) :
    simplifySchema checked s = none := by
  simp [simplifySchema, (simplifyDefinitions_spec checked s.definitions).2 (fun hc => h (okDefs_iff.1 hc))]

/-- C31. Simplification of a validated schema never panics. -/
theorem C31_validated_simplifies (checked : Bool) (s : Ast.Schema) (h : validateSchema checked s = .ok) :
    ∃ t, simplifySchema checked s = some t ∧ SameSchema s t :=
  C31_simplify checked s ((C25_validate_exact checked s).1 h).2

example : ∃ t, simplifySchema true sample = some t ∧ SameSchema sample t := C31_validated_simplifies true _ sample_valid

end Mabo.Props
