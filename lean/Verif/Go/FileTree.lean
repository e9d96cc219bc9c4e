import Verif.Go.TreeText
import Verif.Go.ProjectLemmas
/-! Each Go file that is written is the text of a syntax tree. -/
namespace Mabo.Go
open Mabo.Simplify Mabo.Build
open Mabo.Parse (Text Std)

/-- The syntax tree of the Go file for these definitions. -/
def FileTree (checked : Bool) (name : String) (lines : List String) (ds : List Ast.Definition) (f : File) : Prop :=
  ∃ es, Each (fun d e => simplifyDefinition checked d = some e) ds es ∧ fileOf name lines es = some f

theorem definition_text (std : Std) (checked : Bool) (d : Ast.Definition) :
    definitionText std checked d = ((simplifyDefinition checked d).bind declsOne).map (declsText std) := by
  rw [definitionText]
  cases simplifyDefinition checked d with
  | none => rfl
  | some e =>
    cases e with
    | struct s => exact renderStruct_text std s
    | enum e => exact renderEnum_text std e
    | typeAlias a => exact renderAlias_text std a
    | const c => exact renderConst_text std c
    | «module» _ _ _ => rfl
    | «import» _ _ => rfl

theorem goFile_decls {std : Std} {checked : Bool} {ds : List Ast.Definition} {texts : List Text}
    (h : Each (fun d t => definitionText std checked d = some t) ds texts) :
    ∃ es decls, Each (fun d e => simplifyDefinition checked d = some e) ds es ∧ declsOf es = some decls ∧
      texts.flatten = declsText std decls := by
  induction h with
  | nil => exact ⟨[], [], .nil, rfl, rfl⟩
  | @cons d t ds ts hd _ ih =>
    obtain ⟨es, decls, h1, h2, h3⟩ := ih
    rw [definition_text, Option.map_eq_some_iff] at hd
    obtain ⟨here, hb, rfl⟩ := hd
    rw [Option.bind_eq_some_iff] at hb
    obtain ⟨e, he, hone⟩ := hb
    refine ⟨e :: es, here ++ decls, .cons he h1, ?_, ?_⟩
    · rw [declsOf_cons, hone, h2]; rfl
    · rw [List.flatten_cons, h3, declsText_append]

theorem goFile_tree {std : Std} {checked : Bool} {name : String} {lines : List String} {ds : List Ast.Definition} {c : Text}
    (h : GoFile std checked name lines ds c) : ∃ f, FileTree checked name lines ds f ∧ c = f.text std := by
  obtain ⟨pre, texts, h1, h2, rfl⟩ := h
  obtain ⟨es, decls, h3, h4, h5⟩ := goFile_decls h2
  refine ⟨⟨lines, snake name.toList, importTree, decls⟩, ⟨es, h3, by rw [fileOf, h4]; rfl⟩, ?_⟩
  have ht := file_text std name lines decls
  have : fmt [header, package name lines, imports, some (declsText std decls)] = some (pre ++ declsText std decls) := by
    revert h1
    simp only [fmt]
    cases header <;> cases package name lines <;> cases imports <;> simp
    rintro rfl; simp
  rw [this] at ht
  rw [h5]; exact Option.some.inj ht

theorem tree_goFile {std : Std} {checked : Bool} {name : String} {lines : List String} {ds : List Ast.Definition} {f : File}
    (h : FileTree checked name lines ds f) : GoFile std checked name lines ds (f.text std) := by
  obtain ⟨es, h1, h2⟩ := h
  simp only [fileOf, Option.bind_eq_bind, Option.bind_eq_some_iff, Option.pure_def, Option.some.injEq] at h2
  obtain ⟨decls, h3, rfl⟩ := h2
  have ht := file_text std name lines decls
  have hp : ∃ pre, fmt [header, package name lines, imports] = some pre := by
    rw [header, package, comment_text, imports]; simp [fmt, l]
  obtain ⟨pre, hp⟩ := hp
  have : fmt [header, package name lines, imports, some (declsText std decls)] = some (pre ++ declsText std decls) := by
    revert hp
    simp only [fmt]
    cases header <;> cases package name lines <;> cases imports <;> simp
    rintro rfl; simp
  rw [this] at ht
  have hts : ∃ texts, Each (fun d t => definitionText std checked d = some t) ds texts ∧ texts.flatten = declsText std decls := by
    clear this ht hp
    induction h1 generalizing decls with
    | nil => cases h3; exact ⟨[], .nil, rfl⟩
    | @cons d e ds es hd _ ih =>
      rw [declsOf_cons] at h3
      simp only [Option.bind_eq_some_iff, Option.some.injEq] at h3
      obtain ⟨here, h4, rest, h5, rfl⟩ := h3
      obtain ⟨ts, h6, h7⟩ := ih rest h5
      refine ⟨declsText std here :: ts, .cons ?_ h6, ?_⟩
      · rw [definition_text, hd]; simp [h4]
      · rw [List.flatten_cons, h7, declsText_append]
  obtain ⟨texts, h6, h7⟩ := hts
  exact ⟨pre, texts, hp, h6, by rw [h7]; exact (Option.some.inj ht).symm⟩

/-- A Go file has exactly the text of its tree. -/
theorem goFile_iff {std : Std} {checked : Bool} {name : String} {lines : List String} {ds : List Ast.Definition} {c : Text} :
    GoFile std checked name lines ds c ↔ ∃ f, FileTree checked name lines ds f ∧ c = f.text std :=
  ⟨goFile_tree, fun ⟨_, h, e⟩ => e ▸ tree_goFile h⟩

end Mabo.Go
