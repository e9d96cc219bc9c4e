import Verif.Doc.HtmlScan
/-!
Reading the texts of the templates of the documentation.
-/
namespace Mabo.Doc
open Mabo.Spec.Html
open Mabo.Simplify
open Mabo.Parse (Text Std printNat)
open Mabo.Spec

/-! ### Pieces -/

/-- Reading from between tags to between tags. -/
def Run (f : Bool) (t : Text) (es : List Event) : Prop := ∃ f', Scans (D f) t (D f') es

/-- Whatever was before. -/
def Reads (t : Text) (es : List Event) : Prop := ∀ f, Run f t es

theorem Run.lit {f b : Bool} {l rest : Text} {es es' : List Event} (h : ∀ f, Scans (D f) l (D b) es) (hr : Run b rest es') :
    Run f (l ++ rest) (es ++ es') := by
  obtain ⟨f', hr⟩ := hr
  exact ⟨f', (h f).append hr⟩

theorem Run.last {f b : Bool} {l : Text} {es : List Event} (h : ∀ f, Scans (D f) l (D b) es) : Run f l es := ⟨b, h f⟩

theorem Run.hole {t rest : Text} {es : List Event} (hr : Reads rest es) :
    Run false (escape t ++ rest) (flats (text t) ++ es) := by
  obtain ⟨f1, h1⟩ := scan_escape t false
  obtain ⟨f2, h2⟩ := hr f1
  refine ⟨f2, ?_⟩
  rw [text, flats_chr]
  exact h1.append h2

theorem Run.reads {f : Bool} {t rest : Text} {es es' : List Event} (h : Reads t es) (hr : Reads rest es') :
    Run f (t ++ rest) (es ++ es') := by
  obtain ⟨f1, h1⟩ := h f
  obtain ⟨f2, h2⟩ := hr f1
  exact ⟨f2, h1.append h2⟩

theorem Reads.append {t rest : Text} {es es' : List Event} (h : Reads t es) (hr : Reads rest es') :
    Reads (t ++ rest) (es ++ es') := fun _ => Run.reads h hr

theorem Reads.nil : Reads [] [] := fun f => ⟨f, rfl⟩

theorem Reads.of {t t' : Text} {es es' : List Event} (h : Reads t es) (ht : t' = t) (he : es' = es) : Reads t' es' := by
  subst ht; subst he; exact h

/-! ### Texts of the templates -/

theorem baseHtml_2 (f : Bool) : Scans (D f) (lit "\n\n    <title>") (D false)
    ([.start "title".toList []]) := by
  cases f <;> decide +kernel

theorem baseHtml_4 (f : Bool) : Scans (D f) (lit "\n    </main>\n  </body>\n</html>") (D false)
    ([.stop "main".toList, .stop "body".toList, .stop "html".toList]) := by
  cases f <;> decide +kernel

theorem headingHtml_4 (f : Bool) : Scans (D f) (lit "</span>\n  </h2>") (D false)
    ([.stop "span".toList, .stop "h2".toList]) := by
  cases f <;> decide +kernel

theorem commentHtml_0 (f : Bool) : Scans (D f) (lit "\n  <div class=\"markdown pl-6\">\n    ") (D true)
    ([.start "div".toList [("class".toList, "markdown pl-6".toList)]]) := by
  cases f <;> decide +kernel

theorem commentHtml_1 (f : Bool) : Scans (D f) (lit "\n  </div>\n</div>") (D false)
    ([.stop "div".toList, .stop "div".toList]) := by
  cases f <;> decide +kernel

theorem rowHtml_2 (f : Bool) : Scans (D f) (lit "</a>\n      </td>\n      <td>\n        ") (D true)
    ([.stop "a".toList, .stop "td".toList, .start "td".toList []]) := by
  cases f <;> decide +kernel

theorem rowHtml_3 (f : Bool) : Scans (D f) (lit "\n      </td>\n    </tr>") (D false)
    ([.stop "td".toList, .stop "tr".toList]) := by
  cases f <;> decide +kernel

theorem tableHtml_2 (f : Bool) : Scans (D f) (lit "\n  </table>\n</div>") (D false)
    ([.stop "table".toList, .stop "div".toList]) := by
  cases f <;> decide +kernel

theorem indexHtml_0 (f : Bool) : Scans (D f) (lit "\n<div class=\"section\">\n  <h2>Schema ") (D false)
    ([.start "div".toList [("class".toList, "section".toList)], .start "h2".toList []] ++ "Schema ".toList.map .chr) := by
  cases f <;> decide +kernel

theorem indexHtml_1 (f : Bool) : Scans (D f) (lit "</h2>") (D false)
    ([.stop "h2".toList]) := by
  cases f <;> decide +kernel

theorem structSizeHtml_0 (f : Bool) : Scans (D f) (lit "\n      <div class=\"pl-4\">\n        <h4 class=\"my-2\">Metadata</h4>\n        <div class=\"text-sm\">\n          <p>The size range is:</p>\n          <div\n            class=\"markdown markdown-sm markdown-p:mb-1 markdown-ul:m-0 markdown-ul:pl-4 markdown-li:m-0 markdown-li:pl-0\">\n            ") (D true)
    ([.start "div".toList [("class".toList, "pl-4".toList)], .start "h4".toList [("class".toList, "my-2".toList)]] ++ ("Metadata".toList.map .chr ++ ([.stop "h4".toList, .start "div".toList [("class".toList, "text-sm".toList)], .start "p".toList []] ++ ("The size range is:".toList.map .chr ++ [.stop "p".toList, .start "div".toList [("class".toList, "markdown markdown-sm markdown-p:mb-1 markdown-ul:m-0 markdown-ul:pl-4 markdown-li:m-0 markdown-li:pl-0".toList)]])))) := by
  cases f <;> decide +kernel

theorem structSizeHtml_1 (f : Bool) : Scans (D f) (lit "\n          </div>\n        </div>\n      </div>") (D false)
    ([.stop "div".toList, .stop "div".toList, .stop "div".toList]) := by
  cases f <;> decide +kernel

theorem structFieldHtml_0 (f : Bool) : Scans (D f) (lit "\n    <li class=\"field-definition\">\n      <code>\n        <span class=\"field-name\">") (D false)
    ([.start "li".toList [("class".toList, "field-definition".toList)], .start "code".toList [], .start "span".toList [("class".toList, "field-name".toList)]]) := by
  cases f <;> decide +kernel

theorem structFieldHtml_1 (f : Bool) : Scans (D f) (lit "</span>:\n        <span class=\"field-type\">") (D false)
    ([.stop "span".toList] ++ (":".toList.map .chr ++ [.start "span".toList [("class".toList, "field-type".toList)]])) := by
  cases f <;> decide +kernel

theorem structFieldHtml_2 (f : Bool) : Scans (D f) (lit "</span>\n        <span class=\"field-id\">@") (D false)
    ([.stop "span".toList, .start "span".toList [("class".toList, "field-id".toList)]] ++ "@".toList.map .chr) := by
  cases f <;> decide +kernel

theorem structFieldHtml_3 (f : Bool) : Scans (D f) (lit "</span>\n      </code>\n      <div class=\"markdown pl-4\">\n        ") (D true)
    ([.stop "span".toList, .stop "code".toList, .start "div".toList [("class".toList, "markdown pl-4".toList)]]) := by
  cases f <;> decide +kernel

theorem structFieldHtml_4 (f : Bool) : Scans (D f) (lit "\n      </div>") (D false)
    ([.stop "div".toList]) := by
  cases f <;> decide +kernel

theorem structFieldHtml_5 (f : Bool) : Scans (D f) (lit "\n    </li>") (D false)
    ([.stop "li".toList]) := by
  cases f <;> decide +kernel

theorem nextIdHtml_0 (f : Bool) : Scans (D f) (lit "\n    <p>The next free ID is <code class=\"font-bold\">") (D false)
    ([.start "p".toList []] ++ ("The next free ID is ".toList.map .chr ++ [.start "code".toList [("class".toList, "font-bold".toList)]])) := by
  cases f <;> decide +kernel

theorem nextIdHtml_1 (f : Bool) : Scans (D f) (lit "</code></p>") (D false)
    ([.stop "code".toList, .stop "p".toList]) := by
  cases f <;> decide +kernel

theorem structHtml_0 (f : Bool) : Scans (D f) (lit "\n<div class=\"section\">\n  <h3>Metadata</h3>\n  <div class=\"pl-6 mt-2\">") (D false)
    ([.start "div".toList [("class".toList, "section".toList)], .start "h3".toList []] ++ ("Metadata".toList.map .chr ++ [.stop "h3".toList, .start "div".toList [("class".toList, "pl-6 mt-2".toList)]])) := by
  cases f <;> decide +kernel

theorem structHtml_1 (f : Bool) : Scans (D f) (lit "\n  </div>\n</div>\n<div class=\"section\">\n  <h3>Fields</h3>\n  <ul>") (D false)
    ([.stop "div".toList, .stop "div".toList, .start "div".toList [("class".toList, "section".toList)], .start "h3".toList []] ++ ("Fields".toList.map .chr ++ [.stop "h3".toList, .start "ul".toList []])) := by
  cases f <;> decide +kernel

theorem structHtml_2 (f : Bool) : Scans (D f) (lit "\n  </ul>\n</div>\n") (D true)
    ([.stop "ul".toList, .stop "div".toList]) := by
  cases f <;> decide +kernel

theorem enumSizeHtml_0 (f : Bool) : Scans (D f) (lit "\n            <div class=\"pl-4\">\n              <h4 class=\"my-2\">Metadata</h4>\n              <div class=\"text-sm\">\n                <p>The size range is:</p>\n                <div\n                  class=\"markdown markdown-sm markdown-p:mb-1 markdown-ul:m-0 markdown-ul:pl-4 markdown-li:m-0 markdown-li:pl-0\">\n                  ") (D true)
    ([.start "div".toList [("class".toList, "pl-4".toList)], .start "h4".toList [("class".toList, "my-2".toList)]] ++ ("Metadata".toList.map .chr ++ ([.stop "h4".toList, .start "div".toList [("class".toList, "text-sm".toList)], .start "p".toList []] ++ ("The size range is:".toList.map .chr ++ [.stop "p".toList, .start "div".toList [("class".toList, "markdown markdown-sm markdown-p:mb-1 markdown-ul:m-0 markdown-ul:pl-4 markdown-li:m-0 markdown-li:pl-0".toList)]])))) := by
  cases f <;> decide +kernel

theorem enumSizeHtml_1 (f : Bool) : Scans (D f) (lit "\n                </div>\n              </div>\n            </div>") (D false)
    ([.stop "div".toList, .stop "div".toList, .stop "div".toList]) := by
  cases f <;> decide +kernel

theorem enumFieldHtml_0 (f : Bool) : Scans (D f) (lit "\n          <li>\n            <code>\n              <span class=\"field-name\">") (D false)
    ([.start "li".toList [], .start "code".toList [], .start "span".toList [("class".toList, "field-name".toList)]]) := by
  cases f <;> decide +kernel

theorem enumFieldHtml_1 (f : Bool) : Scans (D f) (lit "</span>:\n              <span class=\"field-type\">") (D false)
    ([.stop "span".toList] ++ (":".toList.map .chr ++ [.start "span".toList [("class".toList, "field-type".toList)]])) := by
  cases f <;> decide +kernel

theorem enumFieldHtml_2 (f : Bool) : Scans (D f) (lit "</span>\n              <span class=\"field-id\">@") (D false)
    ([.stop "span".toList, .start "span".toList [("class".toList, "field-id".toList)]] ++ "@".toList.map .chr) := by
  cases f <;> decide +kernel

theorem enumFieldHtml_3 (f : Bool) : Scans (D f) (lit "</span>\n            </code>\n            <div class=\"markdown pl-4\">\n              ") (D true)
    ([.stop "span".toList, .stop "code".toList, .start "div".toList [("class".toList, "markdown pl-4".toList)]]) := by
  cases f <;> decide +kernel

theorem enumFieldHtml_4 (f : Bool) : Scans (D f) (lit "\n            </div>") (D false)
    ([.stop "div".toList]) := by
  cases f <;> decide +kernel

theorem enumFieldHtml_5 (f : Bool) : Scans (D f) (lit "\n          </li>") (D false)
    ([.stop "li".toList]) := by
  cases f <;> decide +kernel

theorem variantFieldsHtml_0 (f : Bool) : Scans (D f) (lit "\n      <div class=\"pl-6\">\n        <h4>Fields</h4>\n        <ul>") (D false)
    ([.start "div".toList [("class".toList, "pl-6".toList)], .start "h4".toList []] ++ ("Fields".toList.map .chr ++ [.stop "h4".toList, .start "ul".toList []])) := by
  cases f <;> decide +kernel

theorem variantFieldsHtml_1 (f : Bool) : Scans (D f) (lit "\n        </ul>\n      </div>") (D false)
    ([.stop "ul".toList, .stop "div".toList]) := by
  cases f <;> decide +kernel

theorem variantHtml_0 (f : Bool) : Scans (D f) (lit "\n    <li class=\"field-definition\">\n      <code class=\"name-variant text-lg\">\n        <span class=\"variant-name\">") (D false)
    ([.start "li".toList [("class".toList, "field-definition".toList)], .start "code".toList [("class".toList, "name-variant text-lg".toList)], .start "span".toList [("class".toList, "variant-name".toList)]]) := by
  cases f <;> decide +kernel

theorem variantHtml_1 (f : Bool) : Scans (D f) (lit "</span>\n        <span class=\"variant-id\">@") (D false)
    ([.stop "span".toList, .start "span".toList [("class".toList, "variant-id".toList)]] ++ "@".toList.map .chr) := by
  cases f <;> decide +kernel

theorem variantHtml_2 (f : Bool) : Scans (D f) (lit "</span>\n      </code>\n      <div class=\"markdown pl-6\">\n        ") (D true)
    ([.stop "span".toList, .stop "code".toList, .start "div".toList [("class".toList, "markdown pl-6".toList)]]) := by
  cases f <;> decide +kernel

theorem variantHtml_3 (f : Bool) : Scans (D f) (lit "\n      </div>") (D false)
    ([.stop "div".toList]) := by
  cases f <;> decide +kernel

theorem variantHtml_4 (f : Bool) : Scans (D f) (lit "\n    </li>") (D false)
    ([.stop "li".toList]) := by
  cases f <;> decide +kernel

theorem enumHtml_0 (f : Bool) : Scans (D f) (lit "\n<div class=\"section\">\n  <h3>Variants</h3>\n  <ul>") (D false)
    ([.start "div".toList [("class".toList, "section".toList)], .start "h3".toList []] ++ ("Variants".toList.map .chr ++ [.stop "h3".toList, .start "ul".toList []])) := by
  cases f <;> decide +kernel

theorem enumHtml_1 (f : Bool) : Scans (D f) (lit "\n  </ul>\n</div>\n") (D true)
    ([.stop "ul".toList, .stop "div".toList]) := by
  cases f <;> decide +kernel

theorem baseHtml_3 (f : Bool) : Scans (D f) (lit "</title>\n  </head>\n  <body>\n    <nav>\n    </nav>\n    <main>") (D false)
    ([.stop "title".toList, .stop "head".toList, .start "body".toList [], .start "nav".toList [], .stop "nav".toList, .start "main".toList []]) := by
  cases f <;> decide +kernel

end Mabo.Doc
