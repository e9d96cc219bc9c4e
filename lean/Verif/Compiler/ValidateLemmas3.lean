import Verif.Compiler.ValidateLemmas2
/-! Validation of whole schemas. -/
namespace Mabo.Compiler
open Mabo.Ast Mabo.Spec

/-- The checks made at a definition itself, without its inner definitions. -/
def localCheck (checked : Bool) : Definition → Outcome ValidateError
  | .module _ _ ds => (validateNamesInModule ds).mapErr .duplicateName
  | .struct s => validateStruct checked s
  | .enum e => validateEnum checked e
  | .typeAlias a => (tupleSizes a.target).mapErr .tupleSize
  | .const c => (tupleSizes c.ty).mapErr .tupleSize
  | .import _ => .ok

/-- `d'` is the definition or inside it. -/
inductive Inside (d' : Definition) : Definition → Prop where
  | here : Inside d' d'
  | module {comment name ds d} : d ∈ ds → Inside d' d → Inside d' (.module comment name ds)

theorem inside_not_module {d d' : Definition} (h : Inside d' d) (hd : ∀ c n ds, d ≠ .module c n ds) : d' = d := by
  cases h with
  | here => rfl
  | module => exact absurd rfl (hd _ _ _)

mutual
theorem validateDefinition_ok (checked : Bool) : ∀ d : Definition,
    validateDefinition checked d = .ok ↔ ∀ d', Inside d' d → localCheck checked d' = .ok
  | .module c n ds => by
    rw [validateDefinition, andThen_ok, validateDefinitions_ok checked ds]
    constructor
    · rintro ⟨h1, h2⟩ d' hd
      cases hd with
      | here => exact h1
      | module hm hi => exact h2 _ hm d' hi
    · intro h
      exact ⟨h _ .here, fun d hd d' hi => h d' (.module hd hi)⟩
  | .struct s =>
    ⟨fun h d' hd => by rw [inside_not_module hd (by simp)]; exact h, fun h => h _ .here⟩
  | .enum s =>
    ⟨fun h d' hd => by rw [inside_not_module hd (by simp)]; exact h, fun h => h _ .here⟩
  | .typeAlias s =>
    ⟨fun h d' hd => by rw [inside_not_module hd (by simp)]; exact h, fun h => h _ .here⟩
  | .const s =>
    ⟨fun h d' hd => by rw [inside_not_module hd (by simp)]; exact h, fun h => h _ .here⟩
  | .import s =>
    ⟨fun h d' hd => by rw [inside_not_module hd (by simp)]; exact h, fun h => h _ .here⟩
theorem validateDefinitions_ok (checked : Bool) : ∀ ds : List Definition,
    validateDefinitions checked ds = .ok ↔ ∀ d ∈ ds, ∀ d', Inside d' d → localCheck checked d' = .ok
  | [] => by simp [validateDefinitions]
  | d :: ds => by
    rw [validateDefinitions, andThen_ok, validateDefinition_ok checked d, validateDefinitions_ok checked ds]
    simp
end

mutual
theorem validateDefinition_fail (checked : Bool) {o : Outcome ValidateError} (ho : o ≠ .ok) : ∀ d : Definition,
    validateDefinition checked d = o → ∃ d', Inside d' d ∧ localCheck checked d' = o
  | .module c n ds, h => by
    rw [validateDefinition] at h
    rcases andThen_fail h ho with h | ⟨_, h⟩
    · exact ⟨_, .here, h⟩
    · have ⟨d, hd, d', hi, hc⟩ := validateDefinitions_fail checked ho ds h
      exact ⟨d', .module hd hi, hc⟩
  | .struct s, h => ⟨_, .here, h⟩
  | .enum s, h => ⟨_, .here, h⟩
  | .typeAlias s, h => ⟨_, .here, h⟩
  | .const s, h => ⟨_, .here, h⟩
  | .import s, h => ⟨_, .here, h⟩
theorem validateDefinitions_fail (checked : Bool) {o : Outcome ValidateError} (ho : o ≠ .ok) : ∀ ds : List Definition,
    validateDefinitions checked ds = o → ∃ d ∈ ds, ∃ d', Inside d' d ∧ localCheck checked d' = o
  | [], h => absurd h.symm ho
  | d :: ds, h => by
    rw [validateDefinitions] at h
    rcases andThen_fail h ho with h | ⟨_, h⟩
    · exact ⟨d, by simp, validateDefinition_fail checked ho d h⟩
    · have ⟨d', hd, hh⟩ := validateDefinitions_fail checked ho ds h
      exact ⟨d', by simp [hd], hh⟩
end

theorem scope_inside {s : Ast.Schema} {ds : List Definition} (h : Scope s ds) {d d' : Definition} (hd : d ∈ ds)
    (hi : Inside d' d) : ∃ e ∈ s.definitions, Inside d' e := by
  induction h generalizing d with
  | root => exact ⟨d, hd, hi⟩
  | module hs hm ih => exact ih hm (.module hd hi)

theorem inside_occurs {s : Ast.Schema} {d d' : Definition} (hi : Inside d' d) :
    ∀ {ds}, Scope s ds → d ∈ ds → Occurs s d' := by
  induction hi with
  | here => intro ds hs hd; exact ⟨ds, hs, hd⟩
  | module hm _ ih => intro ds hs hd; exact ih (.module hs hd) hm

theorem occurs_iff {s : Ast.Schema} {d' : Definition} :
    Occurs s d' ↔ ∃ d ∈ s.definitions, Inside d' d :=
  ⟨fun ⟨_, hs, hd⟩ => scope_inside hs hd .here, fun ⟨_, hd, hi⟩ => inside_occurs hi .root hd⟩

theorem scope_iff {s : Ast.Schema} {ds : List Definition} :
    Scope s ds ↔ ds = s.definitions ∨ ∃ c n, Occurs s (.module c n ds) := by
  constructor
  · intro h
    cases h with
    | root => exact .inl rfl
    | module hs hm => exact .inr ⟨_, _, _, hs, hm⟩
  · rintro (rfl | ⟨c, n, ds', hs, hm⟩)
    · exact .root
    · exact .module hs hm

theorem validateSchema_ok {checked : Bool} {s : Ast.Schema} :
    validateSchema checked s = .ok ↔
      (s.definitions.flatMap introduced).Nodup ∧ ∀ d, Occurs s d → localCheck checked d = .ok := by
  rw [validateSchema, andThen_ok, mapErr_ok, validateNamesInModule_ok, validateDefinitions_ok]
  refine and_congr_right fun _ => ?_
  constructor
  · intro h d hd
    have ⟨e, he, hi⟩ := occurs_iff.1 hd
    exact h e he d hi
  · intro h d hd d' hi
    exact h d' (occurs_iff.2 ⟨d, hd, hi⟩)

theorem validateSchema_fail {checked : Bool} {s : Ast.Schema} {o : Outcome ValidateError} (ho : o ≠ .ok)
    (h : validateSchema checked s = o) :
    (validateNamesInModule s.definitions).mapErr .duplicateName = o ∨
      ∃ d, Occurs s d ∧ localCheck checked d = o := by
  rw [validateSchema] at h
  rcases andThen_fail h ho with h | ⟨_, h⟩
  · exact .inl h
  · have ⟨d, hd, d', hi, hc⟩ := validateDefinitions_fail checked ho _ h
    exact .inr ⟨d', occurs_iff.2 ⟨d, hd, hi⟩, hc⟩

theorem validateStruct_ok {checked : Bool} {s : Struct} : validateStruct checked s = .ok ↔
    (DistinctIds (givenIds s.fields) ∧ (checked = true → NoOverflow (givenIds s.fields))) ∧
    (fieldNamesOf s.fields).Nodup ∧
    (s.generics.Nodup ∧ ∀ g ∈ s.generics, Used (.struct s) g) ∧
    ∀ t, TypeOf s.fields t → TupleOk t := by
  simp only [validateStruct, andThen_ok, mapErr_ok, validateFieldIds_ok, validateFieldNames_ok, validateFieldTuples_ok,
    validateStructGenerics, genericsCheck (structGenerics_mem s)]

theorem validateEnum_ok {checked : Bool} {e : Enum} : validateEnum checked e = .ok ↔
    ((DistinctIds (e.variants.map (·.id)) ∧ (checked = true → NoOverflow (e.variants.map (·.id)))) ∧
      ∀ v ∈ e.variants, DistinctIds (givenIds v.fields) ∧ (checked = true → NoOverflow (givenIds v.fields))) ∧
    ((e.variants.map (·.name)).Nodup ∧ ∀ v ∈ e.variants, (fieldNamesOf v.fields).Nodup) ∧
    (e.generics.Nodup ∧ ∀ g ∈ e.generics, Used (.enum e) g) ∧
    ∀ v ∈ e.variants, ∀ t, TypeOf v.fields t → TupleOk t := by
  simp only [validateEnum, andThen_ok, mapErr_ok, validateEnumIds_ok, validateFieldIds_ok, validateEnumNames_ok,
    validateEnumTuples, tryForEach_ok, validateFieldTuples_ok, validateEnumGenerics, genericsCheck (enumGenerics_mem e)]

/-- Validity of one definition. -/
structure DefValid (checked : Bool) (d : Definition) : Prop where
  ids : ∀ l, IdList d l → DistinctIds l ∧ (checked = true → NoOverflow l)
  moduleNames : ∀ c n ds, d = .module c n ds → (ds.flatMap introduced).Nodup
  fieldNames : ∀ fs, FieldsOf d fs → (fieldNamesOf fs).Nodup
  variantNames : ∀ e, d = .enum e → (e.variants.map (·.name)).Nodup
  generics : (typeParams d).Nodup ∧ ∀ g ∈ typeParams d, Used d g
  tuples : ∀ t, DefType d t → TupleOk t

theorem localCheck_ok {checked : Bool} : ∀ {d : Definition}, localCheck checked d = .ok ↔ DefValid checked d
  | .module c n ds => by
    rw [localCheck, mapErr_ok, validateNamesInModule_ok]
    constructor
    · intro h
      refine ⟨?_, ?_, ?_, ?_, ?_, ?_⟩
      · intro l hl; cases hl with | fields hf => cases hf
      · intro c' n' ds' h'; cases h'; exact h
      · intro fs hf; cases hf
      · intro e he; cases he
      · simp [typeParams]
      · intro t ht; cases ht with | field hf => cases hf
    · intro h; exact h.moduleNames c n ds rfl
  | .struct s => by
    rw [localCheck, validateStruct_ok]
    constructor
    · rintro ⟨h1, h2, h3, h4⟩
      refine ⟨?_, ?_, ?_, ?_, h3, ?_⟩
      · intro l hl; cases hl with | fields hf => cases hf; exact h1
      · intro c' n' ds' h'; cases h'
      · intro fs hf; cases hf; exact h2
      · intro e he; cases he
      · intro t ht; cases ht with | field hf ht => cases hf; exact h4 t ht
    · intro h
      exact ⟨h.ids _ (.fields (.struct s)), h.fieldNames _ (.struct s), h.generics,
        fun t ht => h.tuples t (.field (.struct s) ht)⟩
  | .enum e => by
    rw [localCheck, validateEnum_ok]
    constructor
    · rintro ⟨⟨h1, h1'⟩, ⟨h2, h2'⟩, h3, h4⟩
      refine ⟨?_, ?_, ?_, ?_, h3, ?_⟩
      · intro l hl
        cases hl with
        | variants => exact h1
        | fields hf => cases hf with | variant _ v hv => exact h1' v hv
      · intro c' n' ds' h'; cases h'
      · intro fs hf; cases hf with | variant _ v hv => exact h2' v hv
      · intro e' he; cases he; exact h2
      · intro t ht; cases ht with | field hf ht => cases hf with | variant _ v hv => exact h4 v hv t ht
    · intro h
      exact ⟨⟨h.ids _ (.variants e), fun v hv => h.ids _ (.fields (.variant e v hv))⟩,
        ⟨h.variantNames e rfl, fun v hv => h.fieldNames _ (.variant e v hv)⟩, h.generics,
        fun v hv t ht => h.tuples t (.field (.variant e v hv) ht)⟩
  | .typeAlias a => by
    rw [localCheck, mapErr_ok, tupleSizes_ok]
    constructor
    · intro h
      refine ⟨?_, ?_, ?_, ?_, ?_, ?_⟩
      · intro l hl; cases hl with | fields hf => cases hf
      · intro c' n' ds' h'; cases h'
      · intro fs hf; cases hf
      · intro e he; cases he
      · simp [typeParams]
      · intro t ht
        cases ht with
        | field hf => cases hf
        | alias => exact h
    · intro h; exact h.tuples _ (.alias a)
  | .const a => by
    rw [localCheck, mapErr_ok, tupleSizes_ok]
    constructor
    · intro h
      refine ⟨?_, ?_, ?_, ?_, ?_, ?_⟩
      · intro l hl; cases hl with | fields hf => cases hf
      · intro c' n' ds' h'; cases h'
      · intro fs hf; cases hf
      · intro e he; cases he
      · simp [typeParams]
      · intro t ht
        cases ht with
        | field hf => cases hf
        | const => exact h
    · intro h; exact h.tuples _ (.const a)
  | .import i => by
    simp only [localCheck, true_iff]
    refine ⟨?_, ?_, ?_, ?_, ?_, ?_⟩
    · intro l hl; cases hl with | fields hf => cases hf
    · intro c' n' ds' h'; cases h'
    · intro fs hf; cases hf
    · intro e he; cases he
    · simp [typeParams]
    · intro t ht; cases ht with | field hf => cases hf

theorem validateSchema_valid {checked : Bool} {s : Ast.Schema} :
    validateSchema checked s = .ok ↔ ValidSchema s ∧ (checked = true → NoIdOverflow s) := by
  rw [validateSchema_ok]
  simp only [localCheck_ok]
  constructor
  · rintro ⟨h1, h2⟩
    refine ⟨⟨fun d hd l hl => ((h2 d hd).ids l hl).1, ⟨?_, fun d hd => (h2 d hd).fieldNames,
      fun e he => (h2 _ he).variantNames e rfl⟩, fun d hd => (h2 d hd).generics, fun d hd => (h2 d hd).tuples⟩,
      fun hc d hd l hl => ((h2 d hd).ids l hl).2 hc⟩
    intro ds hs
    rcases scope_iff.1 hs with rfl | ⟨c, n, ho⟩
    · exact h1
    · exact (h2 _ ho).moduleNames c n ds rfl
  · rintro ⟨hv, ho⟩
    refine ⟨hv.names.scopes _ .root, fun d hd => ⟨fun l hl => ⟨hv.ids d hd l hl, fun hc => ho hc d hd l hl⟩, ?_,
      hv.names.fields d hd, ?_, hv.generics d hd, hv.tuples d hd⟩⟩
    · rintro c n ds rfl
      exact hv.names.scopes ds (scope_iff.2 (.inr ⟨c, n, hd⟩))
    · rintro e rfl; exact hv.names.variants e hd

/-- Where an id error of a definition comes from. -/
theorem localCheck_idErr {checked : Bool} {d : Definition} {e : DuplicateId}
    (h : localCheck checked d = .err (.duplicateId e)) :
    (∃ fs, FieldsOf d fs ∧ validateFieldIds checked fs = .err e) ∨
    ∃ en, d = .enum en ∧ validateEnumIds checked en = .err e := by
  cases d with
  | module c n ds =>
    have ⟨_, _, h⟩ := mapErr_err.1 h; cases h
  | struct s =>
    simp only [localCheck, validateStruct] at h
    rcases andThen_fail h (by simp) with h | ⟨_, h⟩
    · have ⟨_, h, h'⟩ := mapErr_err.1 h; cases h'; exact .inl ⟨_, .struct s, h⟩
    rcases andThen_fail h (by simp) with h | ⟨_, h⟩
    · have ⟨_, h, h'⟩ := mapErr_err.1 h; cases h'
    rcases andThen_fail h (by simp) with h | ⟨_, h⟩
    · have ⟨_, h, h'⟩ := mapErr_err.1 h; cases h'
    · have ⟨_, h, h'⟩ := mapErr_err.1 h; cases h'
  | enum s =>
    simp only [localCheck, validateEnum] at h
    rcases andThen_fail h (by simp) with h | ⟨_, h⟩
    · have ⟨_, h, h'⟩ := mapErr_err.1 h; cases h'; exact .inr ⟨s, rfl, h⟩
    rcases andThen_fail h (by simp) with h | ⟨_, h⟩
    · have ⟨_, h, h'⟩ := mapErr_err.1 h; cases h'
    rcases andThen_fail h (by simp) with h | ⟨_, h⟩
    · have ⟨_, h, h'⟩ := mapErr_err.1 h; cases h'
    · have ⟨_, h, h'⟩ := mapErr_err.1 h; cases h'
  | typeAlias a => have ⟨_, _, h⟩ := mapErr_err.1 h; cases h
  | const a => have ⟨_, _, h⟩ := mapErr_err.1 h; cases h
  | «import» i => cases h

theorem localCheck_nameErr {checked : Bool} {d : Definition} {e : DuplicateName}
    (h : localCheck checked d = .err (.duplicateName e)) :
    (∃ fs n, FieldsOf d fs ∧ e = .field n ∧ Twice (fieldNamesOf fs) n) ∨
    (∃ en n, d = .enum en ∧ e = .variant n ∧ Twice (en.variants.map (·.name)) n) ∨
    ∃ c m ds n, d = .module c m ds ∧ e = .inModule n ∧ Twice (ds.flatMap introduced) n := by
  cases d with
  | module c n ds =>
    have ⟨_, h, h'⟩ := mapErr_err.1 h; cases h'
    have ⟨k, hk, ht⟩ := validateNamesInModule_err h
    exact .inr (.inr ⟨c, n, ds, k, rfl, hk, ht⟩)
  | struct s =>
    simp only [localCheck, validateStruct] at h
    rcases andThen_fail h (by simp) with h | ⟨_, h⟩
    · have ⟨_, h, h'⟩ := mapErr_err.1 h; cases h'
    rcases andThen_fail h (by simp) with h | ⟨_, h⟩
    · have ⟨_, h, h'⟩ := mapErr_err.1 h; cases h'
      have ⟨k, hk, ht⟩ := validateFieldNames_err h
      exact .inl ⟨_, k, .struct s, hk, ht⟩
    rcases andThen_fail h (by simp) with h | ⟨_, h⟩
    · have ⟨_, h, h'⟩ := mapErr_err.1 h; cases h'
    · have ⟨_, h, h'⟩ := mapErr_err.1 h; cases h'
  | enum s =>
    simp only [localCheck, validateEnum] at h
    rcases andThen_fail h (by simp) with h | ⟨_, h⟩
    · have ⟨_, h, h'⟩ := mapErr_err.1 h; cases h'
    rcases andThen_fail h (by simp) with h | ⟨_, h⟩
    · have ⟨_, h, h'⟩ := mapErr_err.1 h; cases h'
      rcases validateEnumNames_err h with ⟨k, hk, ht⟩ | ⟨k, v, hv, hk, ht⟩
      · exact .inr (.inl ⟨s, k, rfl, hk, ht⟩)
      · exact .inl ⟨_, k, .variant s v hv, hk, ht⟩
    rcases andThen_fail h (by simp) with h | ⟨_, h⟩
    · have ⟨_, h, h'⟩ := mapErr_err.1 h; cases h'
    · have ⟨_, h, h'⟩ := mapErr_err.1 h; cases h'
  | typeAlias a => have ⟨_, _, h⟩ := mapErr_err.1 h; cases h
  | const a => have ⟨_, _, h⟩ := mapErr_err.1 h; cases h
  | «import» i => cases h

theorem localCheck_genericErr {checked : Bool} {d : Definition} {e : InvalidGeneric}
    (h : localCheck checked d = .err (.invalidGeneric e)) :
    (∃ n, e = .duplicate n ∧ Twice (typeParams d) n) ∨ ∃ n ∈ typeParams d, e = .unused n ∧ ¬ Used d n := by
  cases d with
  | module c n ds => have ⟨_, _, h⟩ := mapErr_err.1 h; cases h
  | struct s =>
    simp only [localCheck, validateStruct] at h
    rcases andThen_fail h (by simp) with h | ⟨_, h⟩
    · have ⟨_, h, h'⟩ := mapErr_err.1 h; cases h'
    rcases andThen_fail h (by simp) with h | ⟨_, h⟩
    · have ⟨_, h, h'⟩ := mapErr_err.1 h; cases h'
    rcases andThen_fail h (by simp) with h | ⟨_, h⟩
    · have ⟨_, h, h'⟩ := mapErr_err.1 h; cases h'
      exact genericsCheck_err (structGenerics_mem s) h
    · have ⟨_, h, h'⟩ := mapErr_err.1 h; cases h'
  | enum s =>
    simp only [localCheck, validateEnum] at h
    rcases andThen_fail h (by simp) with h | ⟨_, h⟩
    · have ⟨_, h, h'⟩ := mapErr_err.1 h; cases h'
    rcases andThen_fail h (by simp) with h | ⟨_, h⟩
    · have ⟨_, h, h'⟩ := mapErr_err.1 h; cases h'
    rcases andThen_fail h (by simp) with h | ⟨_, h⟩
    · have ⟨_, h, h'⟩ := mapErr_err.1 h; cases h'
      exact genericsCheck_err (enumGenerics_mem s) h
    · have ⟨_, h, h'⟩ := mapErr_err.1 h; cases h'
  | typeAlias a => have ⟨_, _, h⟩ := mapErr_err.1 h; cases h
  | const a => have ⟨_, _, h⟩ := mapErr_err.1 h; cases h
  | «import» i => cases h

theorem localCheck_tupleErr {checked : Bool} {d : Definition} {e : TupleSize}
    (h : localCheck checked d = .err (.tupleSize e)) :
    ∃ t ts tr, DefType d t ∧ Part (.tuple ts tr) t ∧ tupleProblem ts.length = some e := by
  cases d with
  | module c n ds => have ⟨_, _, h⟩ := mapErr_err.1 h; cases h
  | struct s =>
    simp only [localCheck, validateStruct] at h
    rcases andThen_fail h (by simp) with h | ⟨_, h⟩
    · have ⟨_, h, h'⟩ := mapErr_err.1 h; cases h'
    rcases andThen_fail h (by simp) with h | ⟨_, h⟩
    · have ⟨_, h, h'⟩ := mapErr_err.1 h; cases h'
    rcases andThen_fail h (by simp) with h | ⟨_, h⟩
    · have ⟨_, h, h'⟩ := mapErr_err.1 h; cases h'
    · have ⟨_, h, h'⟩ := mapErr_err.1 h; cases h'
      have ⟨t, ts, tr, ht, hp, he⟩ := validateFieldTuples_err h
      exact ⟨t, ts, tr, .field (.struct s) ht, hp, he⟩
  | enum s =>
    simp only [localCheck, validateEnum] at h
    rcases andThen_fail h (by simp) with h | ⟨_, h⟩
    · have ⟨_, h, h'⟩ := mapErr_err.1 h; cases h'
    rcases andThen_fail h (by simp) with h | ⟨_, h⟩
    · have ⟨_, h, h'⟩ := mapErr_err.1 h; cases h'
    rcases andThen_fail h (by simp) with h | ⟨_, h⟩
    · have ⟨_, h, h'⟩ := mapErr_err.1 h; cases h'
    · have ⟨_, h, h'⟩ := mapErr_err.1 h; cases h'
      have ⟨v, hv, h⟩ := tryForEach_fail (by simp) h
      have ⟨t, ts, tr, ht, hp, he⟩ := validateFieldTuples_err h
      exact ⟨t, ts, tr, .field (.variant s v hv) ht, hp, he⟩
  | typeAlias a =>
    have ⟨_, h, h'⟩ := mapErr_err.1 h; cases h'
    have ⟨ts, tr, hp, he⟩ := tupleSizes_err _ _ h
    exact ⟨_, ts, tr, .alias a, hp, he⟩
  | const a =>
    have ⟨_, h, h'⟩ := mapErr_err.1 h; cases h'
    have ⟨ts, tr, hp, he⟩ := tupleSizes_err _ _ h
    exact ⟨_, ts, tr, .const a, hp, he⟩
  | «import» i => cases h

theorem localCheck_panic {checked : Bool} {d : Definition} (h : localCheck checked d = .panic) :
    checked = true ∧ ∃ l, IdList d l ∧ ¬ NoOverflow l := by
  cases d with
  | module c n ds => exact absurd (mapErr_panic.1 h) validateNamesInModule_panic
  | struct s =>
    simp only [localCheck, validateStruct] at h
    rcases andThen_fail h (by simp) with h | ⟨_, h⟩
    · have ⟨h1, h2⟩ := validateFieldIds_panic (mapErr_panic.1 h)
      exact ⟨h1, _, .fields (.struct s), h2⟩
    rcases andThen_fail h (by simp) with h | ⟨_, h⟩
    · exact absurd (mapErr_panic.1 h) validateFieldNames_panic
    rcases andThen_fail h (by simp) with h | ⟨_, h⟩
    · exact absurd (mapErr_panic.1 h) genericsCheck_panic
    · exact absurd (mapErr_panic.1 h) validateFieldTuples_panic
  | enum s =>
    simp only [localCheck, validateEnum] at h
    rcases andThen_fail h (by simp) with h | ⟨_, h⟩
    · have ⟨h1, h2⟩ := validateEnumIds_panic (mapErr_panic.1 h)
      refine ⟨h1, ?_⟩
      rcases h2 with h2 | ⟨v, hv, h2⟩
      · exact ⟨_, .variants s, h2⟩
      · exact ⟨_, .fields (.variant s v hv), h2⟩
    rcases andThen_fail h (by simp) with h | ⟨_, h⟩
    · exact absurd (mapErr_panic.1 h) validateEnumNames_panic
    rcases andThen_fail h (by simp) with h | ⟨_, h⟩
    · exact absurd (mapErr_panic.1 h) genericsCheck_panic
    · have ⟨v, hv, h⟩ := tryForEach_fail (by simp) (mapErr_panic.1 h)
      exact absurd h validateFieldTuples_panic
  | typeAlias a => exact absurd (mapErr_panic.1 h) (tupleSizes_panic _)
  | const a => exact absurd (mapErr_panic.1 h) (tupleSizes_panic _)
  | «import» i => cases h

end Mabo.Compiler
