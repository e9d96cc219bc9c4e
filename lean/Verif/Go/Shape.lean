import Verif.Go.TreeText
/-! The declarations of a file. -/
namespace Mabo.Go
open Mabo.Simplify
open Mabo.Parse (Text)

/-- The structs and variants of the definitions: what `Encode` returns, the Go name, the type parameters and the fields. -/
inductive ItemOf (es : List Definition) : String → Text → List Text → Fields → Prop where
  | struct (s : Struct) : .struct s ∈ es → ItemOf es "w" (upperCamel s.name.toList) (s.generics.map String.toList) s.fields
  | variant (e : Enum) (v : Variant) : .enum e ∈ es → v ∈ e.variants →
      ItemOf es "nil" (upperCamel e.name.toList ++ ['_'] ++ upperCamel v.name.toList)
        ((e.generics.filter fun g => usesGeneric g v.fields).map String.toList) v.fields

theorem declsOf_mem {es : List Definition} {decls : List Decl} (h : declsOf es = some decls) (d : Decl) :
    d ∈ decls ↔ ∃ e ∈ es, ∃ here, declsOne e = some here ∧ d ∈ here := by
  induction es generalizing decls with
  | nil => cases h; simp
  | cons e es ih =>
    rw [declsOf_cons] at h
    simp only [Option.bind_eq_some_iff, Option.some.injEq] at h
    obtain ⟨here, h1, rest, h2, rfl⟩ := h
    rw [List.mem_append, ih h2]
    constructor
    · rintro (hd | ⟨e', he, x, hx, hd⟩)
      · exact ⟨e, List.mem_cons_self, here, h1, hd⟩
      · exact ⟨e', List.mem_cons_of_mem _ he, x, hx, hd⟩
    · rintro ⟨e', he, x, hx, hd⟩
      rcases List.mem_cons.1 he with rfl | he
      · rw [h1] at hx; cases hx; exact .inl hd
      · exact .inr ⟨e', he, x, hx, hd⟩

theorem declsOf_one {es : List Definition} {decls : List Decl} (h : declsOf es = some decls) {e : Definition} (he : e ∈ es) :
    ∃ here, declsOne e = some here ∧ ∀ d ∈ here, d ∈ decls := by
  have : ∃ here, declsOne e = some here := by
    induction es generalizing decls with
    | nil => cases he
    | cons e' es ih =>
      rw [declsOf_cons] at h
      simp only [Option.bind_eq_some_iff, Option.some.injEq] at h
      obtain ⟨here, h1, rest, h2, rfl⟩ := h
      rcases List.mem_cons.1 he with rfl | he
      · exact ⟨here, h1⟩
      · exact ih h2 he
  obtain ⟨here, hh⟩ := this
  exact ⟨here, hh, fun d hd => (declsOf_mem h d).2 ⟨e, he, here, hh, hd⟩⟩

theorem allOf_mem {α β : Type} {g : α → Option β} : ∀ {as : List α} {bs : List β}, allOf g as = some bs →
    (∀ a ∈ as, ∃ b ∈ bs, g a = some b) ∧ ∀ b ∈ bs, ∃ a ∈ as, g a = some b
  | [], bs, h => by cases h; simp
  | a :: as, bs, h => by
    rw [allOf] at h
    simp only [Option.bind_eq_bind, Option.bind_eq_some_iff, Option.pure_def, Option.some.injEq] at h
    obtain ⟨b, hb, bs', hs, rfl⟩ := h
    obtain ⟨h1, h2⟩ := allOf_mem hs
    constructor
    · intro a' ha
      rcases List.mem_cons.1 ha with rfl | ha
      · exact ⟨b, List.mem_cons_self, hb⟩
      · obtain ⟨b', hb', h⟩ := h1 a' ha
        exact ⟨b', List.mem_cons_of_mem _ hb', h⟩
    · intro b' hb'
      rcases List.mem_cons.1 hb' with rfl | hb'
      · exact ⟨a, List.mem_cons_self, hb⟩
      · obtain ⟨a', ha', h⟩ := h2 b' hb'
        exact ⟨a', List.mem_cons_of_mem _ ha', h⟩

/-- The declarations for a struct or variant. -/
structure Parts (decls : List Decl) (ret : String) (name : Text) (gs : List Text) (fs : Fields) : Prop where
  type : ∃ c b, structTree fs = some b ∧ .type c name gs b ∈ decls
  new : ∃ d, newTree name gs fs = some d ∧ d ∈ decls
  enc : ∃ ls, encMethodTree name gs ret fs = some ls ∧ ∀ d ∈ ls, d ∈ decls
  dec : ∃ ls, decMethodTree name gs fs = some ls ∧ ∀ d ∈ ls, d ∈ decls
  size : ∃ ls, sizeMethodTree name gs fs = some ls ∧ ∀ d ∈ ls, d ∈ decls

theorem item_parts {es : List Definition} {decls : List Decl} (h : declsOf es = some decls) {ret : String} {name : Text}
    {gs : List Text} {fs : Fields} (hi : ItemOf es ret name gs fs) : Parts decls ret name gs fs := by
  cases hi with
  | struct s hs =>
    obtain ⟨here, h1, h2⟩ := declsOf_one h hs
    simp only [declsOne, structDecls, Option.bind_eq_bind, Option.bind_eq_some_iff, Option.pure_def, Option.some.injEq] at h1
    obtain ⟨b, hb, nw, hn, en, he, de, hd, si, hsz, rfl⟩ := h1
    exact ⟨⟨s.comment, b, hb, h2 _ (by simp)⟩, ⟨nw, hn, h2 _ (by simp)⟩, ⟨en, he, fun d hm => h2 d (by simp [hm])⟩,
      ⟨de, hd, fun d hm => h2 d (by simp [hm])⟩, ⟨si, hsz, fun d hm => h2 d (by simp [hm])⟩⟩
  | variant e v he hv =>
    obtain ⟨here, h1, h2⟩ := declsOf_one h he
    simp only [declsOne, enumDecls, Option.bind_eq_bind, Option.bind_eq_some_iff, Option.pure_def, Option.some.injEq] at h1
    obtain ⟨vs, hvs, rfl⟩ := h1
    obtain ⟨x, hx, hvx⟩ := (allOf_mem hvs).1 v hv
    have h3 : ∀ d ∈ x, d ∈ decls := fun d hd => h2 d (by simp; exact .inr (.inr (.inr (.inl ⟨x, hx, hd⟩))))
    simp only [variantDecls, Option.bind_eq_bind, Option.bind_eq_some_iff, Option.pure_def, Option.some.injEq] at hvx
    obtain ⟨b, hb, nw, hn, en, he, de, hd, si, hsz, rfl⟩ := hvx
    exact ⟨⟨v.comment, b, hb, h3 _ (by simp)⟩, ⟨nw, hn, h3 _ (by simp)⟩, ⟨en, he, fun d hm => h3 d (by simp [hm])⟩,
      ⟨de, hd, fun d hm => h3 d (by simp [hm])⟩, ⟨si, hsz, fun d hm => h3 d (by simp [hm])⟩⟩

/-- All kinds of declarations. -/
inductive Shape (es : List Definition) : Decl → Prop where
  | type {ret name gs fs b} (c : List String) : ItemOf es ret name gs fs → structTree fs = some b → Shape es (.type c name gs b)
  | new {ret name gs fs d} : ItemOf es ret name gs fs → newTree name gs fs = some d → Shape es d
  | implements {ret name gs fs} (x : String) : ItemOf es ret name gs fs → x = "Encode" ∨ x = "Decode" ∨ x = "Size" →
      Shape es (.implements (.qual (n "buf") (n x) []) name gs)
  | encode {ret name gs fs body} : ItemOf es ret name gs fs → encFieldsTree fs = some body →
      Shape es (.method true name gs (n "Encode") [(n "w", byteSlice)] [byteSlice] (body ++ [.ret [var ret]]))
  | decode {ret name gs fs body} : ItemOf es ret name gs fs → decBodyTree fs = some body →
      Shape es (.method true name gs (n "Decode") [(n "r", byteSlice)] [byteSlice, named "error"] body)
  | size {ret name gs fs body} : ItemOf es ret name gs fs → sizeFieldsTree fs = some body →
      Shape es (.method true name gs (n "Size") [] [named "int"] (.define [n "size"] (.nat 0) :: body ++ [.ret [var "size"]]))
  | sealed {name gs fs} : ItemOf es "nil" name gs fs → Shape es (.method false name gs (n "sealed") [] [] [])
  | interface (e : Enum) : .enum e ∈ es → Shape es (.type [] (upperCamel e.name.toList ++ n "Variant") [] (.interface (n "sealed")))
  | enum (e : Enum) : .enum e ∈ es →
      Shape es (.type e.comment (upperCamel e.name.toList) [] (.type (.name (upperCamel e.name.toList ++ n "Variant") [])))
  | alias (a : TypeAlias) {t : GTy} : .typeAlias a ∈ es → defTree a.target = some t →
      Shape es (.type a.comment (upperCamel a.name.toList) [] (.type t))
  | const (c : Const) {t : GTy} : .const c ∈ es → constTree c.ty = some t →
      Shape es (.const c.comment (constKind c.ty == "var") (upperCamel c.name.toList) t c.value)
  | blank : Shape es .blank

theorem shape_enc {es : List Definition} {ret : String} {name : Text} {gs : List Text} {fs : Fields} {ls : List Decl}
    (hi : ItemOf es ret name gs fs) (h : encMethodTree name gs ret fs = some ls) : ∀ d ∈ ls, Shape es d := by
  simp only [encMethodTree, Option.bind_eq_bind, Option.bind_eq_some_iff, Option.pure_def, Option.some.injEq] at h
  obtain ⟨b, hb, rfl⟩ := h
  intro d hd
  simp only [List.mem_cons, List.not_mem_nil, or_false] at hd
  rcases hd with rfl | rfl | rfl
  · exact .implements "Encode" hi (.inl rfl)
  · exact .blank
  · exact .encode hi hb

theorem shape_dec {es : List Definition} {ret : String} {name : Text} {gs : List Text} {fs : Fields} {ls : List Decl}
    (hi : ItemOf es ret name gs fs) (h : decMethodTree name gs fs = some ls) : ∀ d ∈ ls, Shape es d := by
  simp only [decMethodTree, Option.bind_eq_bind, Option.bind_eq_some_iff, Option.pure_def, Option.some.injEq] at h
  obtain ⟨b, hb, rfl⟩ := h
  intro d hd
  simp only [List.mem_cons, List.not_mem_nil, or_false] at hd
  rcases hd with rfl | rfl | rfl
  · exact .implements "Decode" hi (.inr (.inl rfl))
  · exact .blank
  · exact .decode hi hb

theorem shape_size {es : List Definition} {ret : String} {name : Text} {gs : List Text} {fs : Fields} {ls : List Decl}
    (hi : ItemOf es ret name gs fs) (h : sizeMethodTree name gs fs = some ls) : ∀ d ∈ ls, Shape es d := by
  simp only [sizeMethodTree, Option.bind_eq_bind, Option.bind_eq_some_iff, Option.pure_def, Option.some.injEq] at h
  obtain ⟨b, hb, rfl⟩ := h
  intro d hd
  simp only [List.mem_cons, List.not_mem_nil, or_false] at hd
  rcases hd with rfl | rfl | rfl
  · exact .implements "Size" hi (.inr (.inr rfl))
  · exact .blank
  · exact .size hi hb

theorem shape_of {es : List Definition} {decls : List Decl} (h : declsOf es = some decls) {d : Decl} (hd : d ∈ decls) :
    Shape es d := by
  obtain ⟨e, he, here, h1, h2⟩ := (declsOf_mem h d).1 hd
  cases e with
  | struct s =>
    have hi := ItemOf.struct (es := es) s he
    simp only [declsOne, structDecls, Option.bind_eq_bind, Option.bind_eq_some_iff, Option.pure_def, Option.some.injEq] at h1
    obtain ⟨b, hb, nw, hn, en, hen, de, hde, si, hsz, rfl⟩ := h1
    simp only [List.mem_append, List.mem_cons, List.not_mem_nil, or_false] at h2
    rcases h2 with (((((h2 | h2) | h2) | h2) | h2) | h2) | h2
    · rcases h2 with rfl | rfl | rfl | rfl
      · exact .type _ hi hb
      · exact .blank
      · exact .new hi hn
      · exact .blank
    · exact shape_enc hi hen d h2
    · exact h2 ▸ .blank
    · exact shape_dec hi hde d h2
    · exact h2 ▸ .blank
    · exact shape_size hi hsz d h2
    · exact h2 ▸ .blank
  | enum e =>
    simp only [declsOne, enumDecls, Option.bind_eq_bind, Option.bind_eq_some_iff, Option.pure_def, Option.some.injEq] at h1
    obtain ⟨vs, hvs, rfl⟩ := h1
    simp only [List.mem_append, List.mem_cons, List.not_mem_nil, or_false, List.mem_flatten] at h2
    rcases h2 with ((rfl | rfl | rfl) | ⟨x, hx, hdx⟩) | rfl
    · exact .interface e he
    · exact .blank
    · exact .enum e he
    · obtain ⟨v, hv, hvx⟩ := (allOf_mem hvs).2 x hx
      have hi := ItemOf.variant (es := es) e v he hv
      simp only [variantDecls, Option.bind_eq_bind, Option.bind_eq_some_iff, Option.pure_def, Option.some.injEq] at hvx
      obtain ⟨b, hb, nw, hn, en, hen, de, hde, si, hsz, rfl⟩ := hvx
      simp only [List.mem_append, List.mem_cons, List.not_mem_nil, or_false] at hdx
      rcases hdx with ((((h2 | h2) | h2) | h2) | h2) | h2
      · rcases h2 with rfl | rfl | rfl | rfl | rfl | rfl | rfl
        · exact .blank
        · exact .type _ hi hb
        · exact .blank
        · exact .sealed hi
        · exact .blank
        · exact .new hi hn
        · exact .blank
      · exact shape_enc hi hen d h2
      · exact h2 ▸ .blank
      · exact shape_dec hi hde d h2
      · exact h2 ▸ .blank
      · exact shape_size hi hsz d h2
    · exact .blank
  | typeAlias a =>
    simp only [declsOne, aliasDecls, Option.bind_eq_bind, Option.bind_eq_some_iff, Option.pure_def, Option.some.injEq] at h1
    obtain ⟨t, ht, rfl⟩ := h1
    simp only [List.mem_cons, List.not_mem_nil, or_false] at h2
    rcases h2 with rfl | rfl
    · exact .alias a he ht
    · exact .blank
  | const c =>
    simp only [declsOne, constDecls, Option.bind_eq_bind, Option.bind_eq_some_iff, Option.pure_def, Option.some.injEq] at h1
    obtain ⟨t, ht, rfl⟩ := h1
    simp only [List.mem_cons, List.not_mem_nil, or_false] at h2
    subst h2
    exact .const c he ht
  | «module» _ _ _ => cases h1; cases h2
  | «import» _ _ => cases h1; cases h2

end Mabo.Go
