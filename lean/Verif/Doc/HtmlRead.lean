import Verif.Doc.HtmlLits
/-!
The pages of the documentation are read as the documents in `Spec/DocHtml.lean`.
-/
namespace Mabo.Doc
open Mabo.Spec.Html
open Mabo.Simplify
open Mabo.Parse (Text Std printNat)
open Mabo.Spec

/-! ### Texts with parameters -/

theorem scans_heading (k : Kind) (f : Bool) :
    Scans (D f) (lit "\n<div class=\"section\">\n  <h2>\n    " ++ lit k.title ++ lit "\n    ") (D true)
      ([.start "div".toList [("class".toList, "section".toList)], .start "h2".toList []] ++ k.title.toList.map .chr) := by
  cases k <;> cases f <;> decide +kernel

theorem scans_name (k : Kind) (f : Bool) :
    Scans (D f) (lit "<span class=\"" ++ lit k.cls ++ lit "\">") (D false)
      [.start "span".toList [("class".toList, k.cls.toList)]] := by
  cases k <;> cases f <;> decide +kernel

theorem scans_table (title : String) (h : title ∈ ["Modules", "Structs", "Enums", "Aliases", "Constants"]) (f : Bool) :
    Scans (D f) (lit "\n<div class=\"section\">\n  <h3>" ++ lit title ++ lit "</h3>\n  <table>") (D false)
      ([.start "div".toList [("class".toList, "section".toList)], .start "h3".toList []] ++ (title.toList.map .chr ++
        [.stop "h3".toList, .start "table".toList []])) := by
  simp only [List.mem_cons, List.not_mem_nil, or_false] at h
  rcases h with rfl | rfl | rfl | rfl | rfl <;> cases f <;> decide +kernel

/-- A start tag with inserted text in its last attribute. -/
theorem scans_tag {l r t v w n x : Text} {as : Attrs} {es : List Event} (f : Bool) (hp : isPre n = false)
    (hl : Scans (D f) l ⟨.value n as x v, false, 0⟩ es)
    (hr : ∀ u, Scans ⟨.value n as x u, false, 0⟩ r ⟨.data, false, 0⟩ [.start n (as ++ [(x, u ++ w)])]) :
    Scans (D f) (l ++ (escape t ++ r)) (D false) (es ++ [.start n (as ++ [(x, v ++ t ++ w)])]) := by
  have h2 := scan_escape_value n as x false 0 t v
  have := hl.append (h2.append (hr (v ++ t)))
  simpa [D] using this

theorem scans_value_end (n : Text) (as : Attrs) (x u : Text) (hp : isPre n = false) :
    Scans ⟨.attrs n (as ++ [(x, u)]), false, 0⟩ ['>'] ⟨.data, false, 0⟩ [.start n (as ++ [(x, u)])] := by
  simp [Scans, Reader.scan, Reader.step, Reader.started, hp]

theorem scans_value_chars (n : Text) (as : Attrs) (x : Text) (w : Text) (hw : ∀ c ∈ w, c ≠ '"' ∧ c ≠ '&') : ∀ u,
    Scans ⟨.value n as x u, false, 0⟩ w ⟨.value n as x (u ++ w), false, 0⟩ [] := by
  induction w with
  | nil => intro u; simpa using Scans.nil _
  | cons c cs ih =>
    intro u
    have hc := hw c (by simp)
    have h1 : (⟨.value n as x u, false, 0⟩ : Reader).step c = some (⟨.value n as x (u ++ [c]), false, 0⟩, []) := by
      simp [Reader.step, hc.1, hc.2]
    have := Scans.cons h1 (ih (fun d hd => hw d (by simp [hd])) (u ++ [c]))
    simpa using this

theorem scans_value_quote (n : Text) (as : Attrs) (x : Text) (w tail : Text) (hp : isPre n = false)
    (hw : ∀ c ∈ w, c ≠ '"' ∧ c ≠ '&') (ht : tail = ['>'] ∨ tail = [' ', '/', '>']) (u : Text) :
    Scans ⟨.value n as x u, false, 0⟩ (w ++ '"' :: tail) ⟨.data, false, 0⟩ [.start n (as ++ [(x, u ++ w)])] := by
  have h1 := scans_value_chars n as x w hw u
  have h2 : (⟨.value n as x (u ++ w), false, 0⟩ : Reader).step '"' = some (⟨.attrs n (as ++ [(x, u ++ w)]), false, 0⟩, []) := by
    simp [Reader.step]
  have h3 : Scans ⟨.attrs n (as ++ [(x, u ++ w)]), false, 0⟩ tail ⟨.data, false, 0⟩ [.start n (as ++ [(x, u ++ w)])] := by
    rcases ht with rfl | rfl
    · exact scans_value_end n as x (u ++ w) hp
    · simp [Scans, Reader.scan, Reader.step, Reader.started, hp, isBlank]
  have := h1.append (Scans.cons h2 h3)
  simpa using this

theorem scans_trail (t : Text) (f : Bool) :
    Scans (D f) (lit "<a href=\"" ++ (escape t ++ lit "index.html\">")) (D false)
      [.start "a".toList [("href".toList, t ++ "index.html".toList)]] := by
  have hl : Scans (D f) (lit "<a href=\"") ⟨.value "a".toList [] "href".toList [], false, 0⟩ [] := by
    cases f <;> decide +kernel
  have := scans_tag (t := t) f (by decide) hl
    (fun u => scans_value_quote "a".toList [] "href".toList "index.html".toList ['>'] (by decide) (by decide) (.inl rfl) u)
  exact this

theorem scans_base (t : Text) (f : Bool) :
    Scans (D f) (lit "<!DOCTYPE html>\n<html lang=\"en\">\n  <head>\n    <meta charset=\"utf-8\" />\n    <meta name=\"viewport\" content=\"width=device-width, initial-scale=1\" />\n\n    \n    <link rel=\"stylesheet\" href=\"" ++
      (escape t ++ lit "assets/style.css\" />")) (D false)
      [.decl "DOCTYPE html".toList, .start "html".toList [("lang".toList, "en".toList)], .start "head".toList [],
       .start "meta".toList [("charset".toList, "utf-8".toList)],
       .start "meta".toList [("name".toList, "viewport".toList),
         ("content".toList, "width=device-width, initial-scale=1".toList)],
       .start "link".toList [("rel".toList, "stylesheet".toList), ("href".toList, t ++ "assets/style.css".toList)]] := by
  have hl : Scans (D f) (lit "<!DOCTYPE html>\n<html lang=\"en\">\n  <head>\n    <meta charset=\"utf-8\" />\n    <meta name=\"viewport\" content=\"width=device-width, initial-scale=1\" />\n\n    \n    <link rel=\"stylesheet\" href=\"")
      ⟨.value "link".toList [("rel".toList, "stylesheet".toList)] "href".toList [], false, 0⟩
      [.decl "DOCTYPE html".toList, .start "html".toList [("lang".toList, "en".toList)], .start "head".toList [],
       .start "meta".toList [("charset".toList, "utf-8".toList)],
       .start "meta".toList [("name".toList, "viewport".toList),
         ("content".toList, "width=device-width, initial-scale=1".toList)]] := by
    cases f <;> decide +kernel
  have := scans_tag (t := t) f (by decide) hl
    (fun u => scans_value_quote "link".toList _ "href".toList "assets/style.css".toList [' ', '/', '>'] (by decide) (by decide)
      (.inr rfl) u)
  exact this

/-- What follows the name in the address of a row. -/
def Kind.tail : Kind → Text
  | .module => "/index.html".toList
  | _ => ".html".toList

theorem scans_row (k : Kind) (t : Text) (f : Bool) :
    Scans (D f) ((lit "\n    <tr>\n      <td class=\"pr-8\">\n        <a class=\"text-lg " ++ lit k.cls ++ lit "\" href=\"" ++
        lit k.before) ++ (escape t ++ lit k.after)) (D false)
      [.start "tr".toList [], .start "td".toList [("class".toList, "pr-8".toList)],
       .start "a".toList [("class".toList, "text-lg ".toList ++ k.cls.toList), ("href".toList, k.before.toList ++ t ++ k.tail)]] := by
  have hl : Scans (D f) (lit "\n    <tr>\n      <td class=\"pr-8\">\n        <a class=\"text-lg " ++ lit k.cls ++ lit "\" href=\"" ++
        lit k.before)
      ⟨.value "a".toList [("class".toList, "text-lg ".toList ++ k.cls.toList)] "href".toList k.before.toList, false, 0⟩
      [.start "tr".toList [], .start "td".toList [("class".toList, "pr-8".toList)]] := by
    cases k <;> cases f <;> decide +kernel
  have hr : ∀ u, Scans ⟨.value "a".toList [("class".toList, "text-lg ".toList ++ k.cls.toList)] "href".toList u, false, 0⟩ (lit k.after)
      ⟨.data, false, 0⟩ [.start "a".toList ([("class".toList, "text-lg ".toList ++ k.cls.toList)] ++ [("href".toList, u ++ k.tail)])] := by
    intro u
    cases k
    case module =>
      exact scans_value_quote "a".toList _ "href".toList "/index.html".toList ['>'] (by decide) (by decide) (.inl rfl) u
    all_goals exact scans_value_quote "a".toList _ "href".toList ".html".toList ['>'] (by decide) (by decide) (.inl rfl) u
  exact scans_tag (t := t) f (by decide) hl hr

end Mabo.Doc
