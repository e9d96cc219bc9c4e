import Verif.Doc.HtmlPages
import Verif.Props.Schema
/-!
C76: the pages that `mabo doc` writes are well-formed HTML, and what comes from the schema is text in them.
-/
namespace Mabo.Props
open Mabo.Doc
open Mabo.Spec.Html
open Mabo.Simplify
open Mabo.Parse (Text Std printNat)
open Mabo.Spec

variable {md : Markdown} {m : DocHtml.Meaning}

mutual
theorem definition_documents (h : Converts md m) (std : Std) (checked : Bool) : ∀ (d : Definition) (parent : List Text) (path : List String),
    (htmlDefinition std md checked parent path d).map (fun x => x.2.map readHtml) =
      (DocHtml.documents std (Meta.nextFieldId checked) m path d).map (Option.map some)
  | .module c n ds, parent, path => by
    simp only [htmlDefinition, DocHtml.documents, List.map_cons, Option.map_some, read_module h]
    rw [definitions_documents h std checked ds]
  | .struct s, parent, path => by
    simp only [htmlDefinition, DocHtml.documents, List.map_cons, List.map_nil]
    cases hn : Meta.nextFieldId checked s.fields with
    | none => simp [structHtml, hn]
    | some next => rw [read_struct h checked path s next hn]; rfl
  | .enum e, parent, path => by simp [htmlDefinition, DocHtml.documents, read_enum h]
  | .typeAlias a, parent, path => by simp [htmlDefinition, DocHtml.documents, read_alias h]
  | .const c, parent, path => by simp [htmlDefinition, DocHtml.documents, read_const h]
  | .import _ _, parent, path => rfl
theorem definitions_documents (h : Converts md m) (std : Std) (checked : Bool) : ∀ (ds : List Definition) (parent : List Text)
    (path : List String),
    (htmlDefinitions std md checked parent path ds).map (fun x => x.2.map readHtml) =
      (DocHtml.allDocuments std (Meta.nextFieldId checked) m path ds).map (Option.map some)
  | [], parent, path => rfl
  | d :: ds, parent, path => by
    simp only [htmlDefinitions, DocHtml.allDocuments, List.map_append]
    rw [definition_documents h std checked d, definitions_documents h std checked ds]
end

/-- C76: every page that is written is well-formed, and it is the document that the schema asks for: names, types, values and
definitions are the text of their elements, whatever characters they have. Assumes that the conversion of Markdown gives
well-formed HTML. -/
theorem C76_documents (h : Converts md m) (std : Std) (checked : Bool) (out : List Text) (stem : String) (t : Schema) :
    (htmlSchema std md checked out stem t).map (fun x => x.2.map readHtml) =
      (some (DocHtml.schemaPage m [stem] t.comment stem t.definitions) ::
        DocHtml.allDocuments std (Meta.nextFieldId checked) m [stem] t.definitions).map (Option.map some) := by
  simp only [htmlSchema, List.map_cons, Option.map_some, read_index h]
  rw [definitions_documents h std checked t.definitions]

mutual
theorem definition_paths (std : Std) (md : Markdown) (checked : Bool) : ∀ (d : Definition) (parent : List Text) (path : List String),
    (htmlDefinition std md checked parent path d).map (fun x => (x.1, x.2.isSome)) =
      (match renderDefinition std checked path d with
        | some o => writeOutput parent o
        | none => []).map (fun (x : List Text × Page) => (x.1, x.2.nextId.isSome))
  | .module c n ds, parent, path => by
    simp only [htmlDefinition, renderDefinition, writeOutput, List.map_cons, modulePage, Option.isSome_some]
    rw [definitions_paths std md checked ds]
  | .struct s, parent, path => by
    simp only [htmlDefinition, renderDefinition, writeOutput, writeOutputs, List.map_cons, List.map_nil, structPage, structHtml,
      Option.isSome_map]
  | .enum e, parent, path => by
    simp only [htmlDefinition, renderDefinition, writeOutput, writeOutputs, List.map_cons, List.map_nil, enumPage, Option.isSome_some]
  | .typeAlias a, parent, path => by
    simp only [htmlDefinition, renderDefinition, writeOutput, writeOutputs, List.map_cons, List.map_nil, aliasPage, Option.isSome_some]
  | .const c, parent, path => by
    simp only [htmlDefinition, renderDefinition, writeOutput, writeOutputs, List.map_cons, List.map_nil, constPage, Option.isSome_some]
  | .import _ _, parent, path => rfl
theorem definitions_paths (std : Std) (md : Markdown) (checked : Bool) : ∀ (ds : List Definition) (parent : List Text)
    (path : List String),
    (htmlDefinitions std md checked parent path ds).map (fun x => (x.1, x.2.isSome)) =
      (writeOutputs parent (renderDefinitions std checked path ds)).map (fun x => (x.1, x.2.nextId.isSome))
  | [], parent, path => rfl
  | d :: ds, parent, path => by
    have h1 := definition_paths std md checked d parent path
    have h2 := definitions_paths std md checked ds parent path
    simp only [htmlDefinitions, renderDefinitions, List.map_append]
    rw [h1, h2]
    cases renderDefinition std checked path d with
    | none => rfl
    | some o => simp only [writeOutputs, List.map_append]
end

/-- C76: they are written to the files of C53, one for each; the page of a struct is missing exactly if its next free id
cannot be told (the command panics). -/
theorem C76_paths (std : Std) (md : Markdown) (checked : Bool) (out : List Text) (stem : String) (t : Schema) :
    (htmlSchema std md checked out stem t).map (fun x => (x.1, x.2.isSome)) =
      (docSchema std checked out stem t).map (fun x => (x.1, x.2.nextId.isSome)) := by
  simp only [htmlSchema, docSchema, renderSchema, writeOutput, List.map_cons]
  rw [definitions_paths std md checked t.definitions]
  simp only [indexPage, Option.isSome_some]

/-! ### Nothing is injected -/

theorem allTags_append (depth : Nat) (a b : List Node) :
    DocHtml.allTags depth (a ++ b) = DocHtml.allTags depth a ++ DocHtml.allTags depth b := by
  induction a with
  | nil => rfl
  | cons x xs ih => simp [DocHtml.allTags, ih]

theorem allTags_chr (depth : Nat) (t : Text) : DocHtml.allTags depth (t.map .chr) = [] := by
  induction t with
  | nil => rfl
  | cons c cs ih => simpa [DocHtml.allTags, DocHtml.tags] using ih

theorem allTags_trail (depth len : Nat) (ps : List String) : ∀ i,
    DocHtml.allTags depth (DocHtml.trail len i ps) = ps.map fun _ => (['a'], depth) := by
  induction ps with
  | nil => intro i; rfl
  | cons p ps ih =>
    intro i
    have h1 := allTags_chr (depth + 1) (joined false p.toList)
    have h2 : DocHtml.allTags depth (say "::" ++ DocHtml.trail len (i + 1) ps) = ps.map fun _ => (['a'], depth) := by
      rw [allTags_append, say, allTags_chr, ih]; rfl
    simp only [DocHtml.trail, List.cons_append, DocHtml.allTags, el, DocHtml.tags, text, h1, h2, List.map_cons]
    rfl

/-- The elements of the page of a constant. -/
theorem const_tags (std : Std) (m : DocHtml.Meaning) (path : List String) (c : Const) :
    DocHtml.allTags 0 (DocHtml.constPage std m path c) =
      [("html".toList, 0), ("head".toList, 1), ("meta".toList, 2), ("meta".toList, 2), ("link".toList, 2), ("title".toList, 2),
       ("body".toList, 1), ("nav".toList, 2), ("main".toList, 2), ("div".toList, 3), ("h2".toList, 4)] ++
      (path.map fun _ => (['a'], 5)) ++ [("span".toList, 5), ("pre".toList, 4), ("div".toList, 4)] ++
      DocHtml.allTags 5 (m.block (mergeComments c.comment)) := by
  simp only [DocHtml.constPage, DocHtml.page, DocHtml.part, DocHtml.heading, DocHtml.definition, DocHtml.comment, DocHtml.cls,
    DocHtml.plain, el, DocHtml.allTags, DocHtml.tags, allTags_append, text, exact, say, allTags_chr, allTags_trail, List.append_nil,
    List.nil_append, List.cons_append, List.append_assoc]

/-- C76: the elements of the page of a constant do not depend on its name, type or value: there is no way to add elements
through a value. -/
theorem C76_no_markup (h : Converts md m) (std : Std) (path path' : List String) (c c' : Const) (hp : path.length = path'.length)
    (hc : c.comment = c'.comment) :
    ∃ doc doc', readHtml (constHtml std md path c) = some doc ∧ readHtml (constHtml std md path' c') = some doc' ∧
      DocHtml.allTags 0 doc = DocHtml.allTags 0 doc' := by
  refine ⟨_, _, read_const h std path c, read_const h std path' c', ?_⟩
  rw [const_tags, const_tags, hc]
  have : (path.map fun _ => ((['a'] : Text), 5)) = path'.map fun _ => (['a'], 5) := by
    simp only [List.map_const']
    rw [hp]
  rw [this]

theorem allInside_append (name : Text) (w : Bool) (a b : List Node) :
    DocHtml.allInside name w (a ++ b) = DocHtml.allInside name w a ++ DocHtml.allInside name w b := by
  induction a with
  | nil => rfl
  | cons x xs ih => simp [DocHtml.allInside, ih]

theorem allInside_chr (name : Text) (w : Bool) (t : Text) :
    DocHtml.allInside name w (t.map .chr) = if w = true then t else [] := by
  induction t with
  | nil => cases w <;> rfl
  | cons c cs ih => cases w <;> simp_all [DocHtml.allInside, DocHtml.inside]

theorem allInside_trail (len : Nat) (ps : List String) : ∀ i,
    DocHtml.allInside "pre".toList false (DocHtml.trail len i ps) = [] := by
  induction ps with
  | nil => intro i; rfl
  | cons p ps ih =>
    intro i
    have h1 : DocHtml.allInside "pre".toList false (text p.toList) = [] := by rw [text, allInside_chr]; rfl
    have h2 : DocHtml.allInside "pre".toList false (say "::" ++ DocHtml.trail len (i + 1) ps) = [] := by
      rw [allInside_append, say, allInside_chr, ih]; rfl
    simp only [DocHtml.trail, List.cons_append, DocHtml.allInside, el, DocHtml.inside]
    have e : (false || "a".toList == "pre".toList) = false := by decide
    rw [e, h1, h2]
    rfl

/-- C76: the definition of a constant is shown as it is (C54), character by character, if its comment has no `pre`. -/
theorem C76_definition_shown (h : Converts md m) (std : Std) (path : List String) (c : Const)
    (hc : DocHtml.allInside "pre".toList false (m.block (mergeComments c.comment)) = []) :
    ∃ doc, readHtml (constHtml std md path c) = some doc ∧ DocHtml.allInside "pre".toList false doc = docConst std c := by
  refine ⟨_, read_const h std path c, ?_⟩
  have e : ∀ n ∈ ["html", "head", "meta", "link", "title", "body", "nav", "main", "div", "h2", "span"],
      (n.toList == "pre".toList) = false := by decide
  simp only [List.mem_cons, List.not_mem_nil, or_false, forall_eq_or_imp, forall_eq] at e
  have e2 : ("pre".toList == "pre".toList) = true := by decide
  simp only [DocHtml.constPage, DocHtml.page, DocHtml.part, DocHtml.heading, DocHtml.definition, DocHtml.comment, DocHtml.cls,
    DocHtml.plain, el, DocHtml.allInside, DocHtml.inside, allInside_append, text, exact, say, allInside_chr, allInside_trail, e, e2,
    hc, Bool.false_or, Bool.or_false, List.append_nil, List.nil_append, if_true, Bool.false_eq_true, if_false]

/-! ### Examples -/

/-- A conversion that puts everything into a paragraph. -/
def C76_md : Markdown := ⟨fun t => "<p>".toList ++ (escape t ++ "</p>".toList), fun _ t => "<p>".toList ++ (escape t ++ "</p>".toList)⟩

/-- What it means. -/
def C76_meaning : DocHtml.Meaning := ⟨fun t => [DocHtml.plain "p" (text t)], fun _ t => [DocHtml.plain "p" (text t)]⟩

theorem C76_paragraph (t : Text) :
    readHtml ("<p>".toList ++ (escape t ++ "</p>".toList)) = some [DocHtml.plain "p" (text t)] := by
  have h1 : ∀ f, Scans (D f) "<p>".toList (D false) [.start "p".toList []] := by intro f; cases f <;> decide +kernel
  have h2 : ∀ f, Scans (D f) "</p>".toList (D false) [.stop "p".toList] := by intro f; cases f <;> decide +kernel
  refine readHtml_of (Reads.of (fun f => Run.lit h1 (Run.hole (t := t) (fun _ => Run.last h2))) rfl ?_) ?_
  · events
  · sounds

theorem C76_converts : Converts C76_md C76_meaning where
  block := C76_paragraph
  sizes := fun _ => C76_paragraph
  blockTrimmed := fun t c r hc => by
    have : c = '<' := by injection hc with h1; exact h1.symm
    subst this; decide
  sizesTrimmed := fun n t c r hc => by
    have : c = '<' := by injection hc with h1; exact h1.symm
    subst this; decide

/-- A constant with markup in its value. -/
def C76_const : Const :=
  { comment := ["A <b>bold</b> claim."], name := "EVIL", ty := .prim .string, value := .string "</pre><script>alert(\"1\")</script>" }

example : ∃ doc doc', readHtml (constHtml C41_std C76_md ["s", "m"] C76_const) = some doc ∧
    readHtml (constHtml C41_std C76_md ["a", "b"] { C76_const with name := "GOOD", ty := .prim .bool, value := .bool true }) = some doc' ∧
      DocHtml.allTags 0 doc = DocHtml.allTags 0 doc' :=
  C76_no_markup C76_converts C41_std _ _ _ _ rfl rfl

example : ∃ doc, readHtml (constHtml C41_std C76_md ["s", "m"] C76_const) = some doc ∧
    DocHtml.allInside "pre".toList false doc = docConst C41_std C76_const :=
  C76_definition_shown C76_converts C41_std _ _ (by decide +kernel)

example : docConst C41_std C76_const =
    "const EVIL: string = \"</pre><script>alert(\\\"1\\\")</script>\";".toList := by decide +kernel

/-- Without escaping the page would have another element. -/
example : (readHtml "<pre></pre><script></script></pre>".toList).isNone = true := by decide +kernel

example : (htmlSchema C41_std C76_md true [] "s" { comment := [], definitions := [.const C76_const] }).map
    (fun x => x.2.map readHtml) = [some (some (DocHtml.schemaPage C76_meaning ["s"] [] "s" [.const C76_const])),
      some (some (DocHtml.constPage C41_std C76_meaning ["s"] C76_const))] :=
  C76_documents C76_converts C41_std true [] "s" { comment := [], definitions := [.const C76_const] }

end Mabo.Props
