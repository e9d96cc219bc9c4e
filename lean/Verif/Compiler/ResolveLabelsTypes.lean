import Verif.Lsp.DiagMain
import Verif.Compiler.ResolveLabelsErase
import Verif.Spec.ResolveLabels
/-! Where the names of referenced types are among the tokens of the file. -/
namespace Mabo.Labels
open Mabo.Parse (Text P bind_eq_ok pure_eq_ok alt_eq_ok opt_eq_ok ws_run sp_run cutErr_ok)
open Mabo.Spanned Mabo.Spec Mabo.Spec.Diag Mabo.Spec.Labels
open Mabo.Lsp hiding Text

/-- What is at a place of a covered text. -/
theorem cover_get {s r : Text} {cs : List Call} {is : List Item} (h : Cover s r cs is) : ∀ (i : Nat) (c : Call) (it : Item),
    cs[i]? = some c → is[i]? = some it → ∃ v, c.span.start = v ++ c.span.stop ∧ it.text v := by
  induction h with
  | nil _ => intro i c it h; simp at h
  | cons h1 h2 h3 h4 h5 h6 h7 h8 h9 ih =>
    intro i c it hc hi
    cases i with
    | zero =>
      simp only [List.getElem?_cons_zero, Option.some.injEq] at hc hi
      subst hc hi
      exact ⟨_, h2, h5⟩
    | succ i => exact ih i c it (by simpa using hc) (by simpa using hi)

/-- The span of the name is that of its text. -/
def NameOk (n : Spanned.Name) : Prop := n.span.start = n.value.toList ++ n.span.stop

/-- A type that the parser read. -/
def ParsedTy (t : Ty) : Prop := ∃ n s r, Spanned.typeDepth n s = .ok t r

theorem ParsedTy.cover {t : Ty} (h : ParsedTy t) : ∃ s r, Cover s r (visitType t) (typeItems t.erase) := by
  obtain ⟨n, s, r, e⟩ := h
  exact ⟨s, r, cov_typeDepth n e⟩

theorem ParsedTy.len {t : Ty} (h : ParsedTy t) : (visitType t).length = (typeItems t.erase).length := by
  obtain ⟨s, r, h⟩ := h.cover
  exact h.length_eq

/-- The parts of a type that the parser read. -/
def TyParts : Ty → Prop
  | .prim _ _ => True
  | .single _ _ _ t _ => ParsedTy t
  | .hashMap _ _ k _ v _ => ParsedTy k ∧ ParsedTy v
  | .tuple _ ts cs last _ => ListOk ParsedTy ⟨ts, cs, last⟩
  | .array _ t _ _ _ => ParsedTy t
  | .external _ _ angle ts cs last => angle = none ∧ ts = [] ∨ (∃ a, angle = some a) ∧ ListOk ParsedTy ⟨ts, cs, last⟩

theorem ws_parsed {n : Nat} {s r : Text} {t : Ty} (h : Parse.ws (typeDepth n) s = .ok t r) : ParsedTy t := by
  rw [ws_run] at h
  exact ⟨n, _, _, h⟩

theorem ParsedTy.parts {t : Ty} (h : ParsedTy t) : TyParts t := by
  obtain ⟨n, s, r, e⟩ := h
  have suf : ∀ n, Suf (Parse.ws (typeDepth n)) := fun n => suf_ws (suf_of_cov (cov_typeDepth n))
  cases n with
  | zero => cases e
  | succ n =>
    rcases alt_eq_ok e with e | ⟨_, e⟩
    · obtain ⟨x, m, h1, e1⟩ := bind_eq_ok e
      obtain ⟨rfl, rfl⟩ := pure_eq_ok e1
      trivial
    rcases alt_eq_ok e with e | ⟨_, e⟩
    · obtain ⟨⟨w, sp1⟩, m, h1, e⟩ := bind_eq_ok e
      have single : ∀ k, Spanned.parseSingle (typeDepth n) k sp1 m = .ok t r → TyParts t := by
        intro k e
        obtain ⟨d, m1, h2, e1⟩ := bind_eq_ok e
        obtain ⟨rfl, rfl⟩ := pure_eq_ok e1
        obtain ⟨a, b, h3⟩ := surround_inner (cutErr_ok.1 h2)
        exact ⟨n, a, b, h3⟩
      simp only at e
      split at e
      · exact single _ e
      split at e
      · obtain ⟨d, m1, h2, e1⟩ := bind_eq_ok e
        obtain ⟨rfl, rfl⟩ := pure_eq_ok e1
        obtain ⟨a, b, h3⟩ := surround_inner (cutErr_ok.1 h2)
        obtain ⟨k, m2, h4, e4⟩ := bind_eq_ok h3
        obtain ⟨c, m3, h5, e5⟩ := bind_eq_ok e4
        obtain ⟨v, m4, h6, e6⟩ := bind_eq_ok e5
        obtain ⟨e7, rfl⟩ := pure_eq_ok e6
        rw [sp_run] at h6
        simp only [TyParts, ← e7]
        exact ⟨⟨n, _, _, h4⟩, ⟨n, _, _, h6⟩⟩
      split at e
      · exact single _ e
      split at e
      · exact single _ e
      split at e
      · exact single _ e
      · cases e
    rcases alt_eq_ok e with e | ⟨_, e⟩
    · obtain ⟨d, m, h1, e1⟩ := bind_eq_ok e
      obtain ⟨rfl, rfl⟩ := pure_eq_ok e1
      obtain ⟨a, b, h3⟩ := surround_inner h1
      exact (commaList_parsed (suf n) List.suffix_rfl h3).imp fun t ⟨_, _, _, h⟩ => ws_parsed h
    rcases alt_eq_ok e with e | ⟨_, e⟩
    · obtain ⟨d, m, h1, e1⟩ := bind_eq_ok e
      obtain ⟨rfl, rfl⟩ := pure_eq_ok e1
      obtain ⟨a, b, h3⟩ := surround_inner h1
      obtain ⟨k, m2, h4, e4⟩ := bind_eq_ok h3
      obtain ⟨c, m3, h5, e5⟩ := bind_eq_ok e4
      obtain ⟨v, m4, h6, e6⟩ := bind_eq_ok e5
      obtain ⟨e7, rfl⟩ := pure_eq_ok e6
      simp only [TyParts, ← e7]
      exact ws_parsed h4
    · obtain ⟨path, m1, h1, e⟩ := bind_eq_ok e
      obtain ⟨name, m2, h2, e⟩ := bind_eq_ok e
      obtain ⟨g, m3, h3, e2⟩ := bind_eq_ok e
      rcases opt_eq_ok h3 with ⟨d, rfl, h4⟩ | ⟨rfl, rfl, _⟩
      · obtain ⟨rfl, rfl⟩ := pure_eq_ok e2
        obtain ⟨a, b, h3⟩ := surround_inner h4
        exact .inr ⟨⟨_, rfl⟩, (commaList_parsed (suf n) List.suffix_rfl h3).imp fun t ⟨_, _, _, h⟩ => ws_parsed h⟩
      · obtain ⟨rfl, rfl⟩ := pure_eq_ok e2
        exact .inl ⟨rfl, rfl⟩

theorem length_pathCalls (path : List (Spanned.Name × Span)) : (visitPath path).length = 2 * path.length := by
  induction path with
  | nil => rfl
  | cons x xs ih => simp only [visitPath, List.flatMap_cons, List.length_append, List.length_cons, List.length_nil] at ih ⊢; omega

theorem length_pathItems (path : List String) :
    (path.flatMap fun p => [word "namespace" p, word "doubleColon" "::"]).length = 2 * path.length := by
  induction path with
  | nil => rfl
  | cons x xs ih => simp only [List.flatMap_cons, List.length_append, List.length_cons, List.length_nil] at ih ⊢; omega

/-- The name of a referenced type has the right span. -/
theorem external_name {path : List (Spanned.Name × Span)} {name : Spanned.Name} {angle : Option (Span × Span)} {ts : List Ty}
    {cs : List Span} {last : Option Span} (h : ParsedTy (.external path name angle ts cs last)) : NameOk name := by
  obtain ⟨s, r, hc⟩ := h.cover
  have h1 : (visitType (.external path name angle ts cs last))[2 * path.length]? = some ⟨name.span, "type", []⟩ := by
    simp only [visitType, List.append_assoc]
    rw [List.getElem?_append_right (by rw [length_pathCalls]; omega), length_pathCalls, Nat.sub_self]
    rfl
  have h2 : (typeItems (Ty.external path name angle ts cs last).erase)[2 * path.length]? = some (word "type" name.value) := by
    simp only [Ty.erase, typeItems]
    rw [List.getElem?_append_right (by rw [length_pathItems, List.length_map]; omega), length_pathItems, List.length_map, Nat.sub_self]
    rfl
  obtain ⟨v, h3, h4⟩ := cover_get hc _ _ _ h1 h2
  cases h4
  exact h3

/-- The external type is a part of the type, and its name is among the calls. -/
def ExtAt (source : Text) (C : List Call) (n : Nat) (t : Ty) (e : Ext) : Prop :=
  ∃ tr m, PartAt (.external (e.path.map (·.value)) e.name.value (e.args.map Ty.erase) tr) m n t.erase ∧
    ∃ v : Spanned.Name, e.name = nameIn source v ∧ NameOk v ∧ At C (m + 2 * e.path.length) [⟨v.span, "type", []⟩]

/-- For all the external types of a type. -/
def ExtsAt (source : Text) (C : List Call) (t : Ty) : Prop :=
  ∀ n, ParsedTy t → At C n (visitType t) → ∀ e ∈ externals source t, ExtAt source C n t e

mutual
theorem ext_at (source : Text) (C : List Call) : ∀ t : Ty, ExtsAt source C t
  | .prim _ _ => by intro n _ _ e he; simp only [externals] at he; cases he
  | .single k sp o t c => by
    intro n hp ha e he
    have ih := ext_at source C t (n + 2) hp.parts
    simp only [visitType, List.append_assoc] at ha
    have ha' : At C (n + 2) (visitType t) := ha.mid
    cases k with
    | nonZero => simp only [externals] at he; cases he
    | vec =>
      simp only [externals] at he
      obtain ⟨tr, m, h1, h2⟩ := ih ha' e he
      refine ⟨tr, m, ?_, h2⟩
      simp only [Ty.erase, Single.erase]; exact .vec h1
    | hashSet =>
      simp only [externals] at he
      obtain ⟨tr, m, h1, h2⟩ := ih ha' e he
      refine ⟨tr, m, ?_, h2⟩
      simp only [Ty.erase, Single.erase]; exact .hashSet h1
    | option =>
      simp only [externals] at he
      obtain ⟨tr, m, h1, h2⟩ := ih ha' e he
      refine ⟨tr, m, ?_, h2⟩
      simp only [Ty.erase, Single.erase]; exact .option h1
  | .hashMap sp o k c v cl => by
    intro n hp ha e he
    obtain ⟨hk, hv⟩ := hp.parts
    simp only [visitType, List.append_assoc] at ha
    have ha1 : At C (n + 2) (visitType k) := ha.mid
    have ha2 : At C (n + 2 + (visitType k).length + 1) (visitType v) := ha.right.right.mid
    rw [hk.len] at ha2
    simp only [externals, List.mem_append] at he
    rcases he with he | he
    · obtain ⟨tr, m, h1, h2⟩ := ext_at source C k _ hk ha1 e he
      refine ⟨tr, m, ?_, h2⟩
      simp only [Ty.erase]; exact .hashMapKey h1
    · obtain ⟨tr, m, h1, h2⟩ := ext_at source C v _ hv ha2 e he
      refine ⟨tr, m, ?_, h2⟩
      simp only [Ty.erase]; exact .hashMapValue h1
  | .tuple o ts cs last cl => by
    intro n hp ha e he
    have ih := exts_at source C ts
    have hl := hp.parts
    simp only [visitType, List.append_assoc, visitTypes_eq] at ha
    have ha1 := ha.mid
    simp only [externals, externalsList_eq, List.mem_flatMap] at he
    obtain ⟨t, ht, he⟩ := he
    obtain ⟨i, hi⟩ := List.getElem?_of_mem ht
    obtain ⟨ht', ha2⟩ := list_at (items := typeItems) (m := Ty.erase) hl (fun _ h => ParsedTy.len h) ha1 hi
    obtain ⟨tr, m, h1, h2⟩ := ih t ht _ ht' ha2 e he
    refine ⟨tr, m, ?_, h2⟩
    simp only [Ty.erase]
    exact .tuple (i := i) (Compiler.map_getElem? hi) h1
  | .array o t sc sz cl => by
    intro n hp ha e he
    have ih := ext_at source C t (n + 1) hp.parts
    simp only [visitType, List.append_assoc] at ha
    have ha' : At C (n + 1) (visitType t) := ha.mid
    simp only [externals] at he
    obtain ⟨tr, m, h1, h2⟩ := ih ha' e he
    refine ⟨tr, m, ?_, h2⟩
    simp only [Ty.erase]; exact .array h1
  | .external path name angle ts cs last => by
    intro n hp ha e he
    have ih := exts_at source C ts
    simp only [externals, List.mem_cons] at he
    simp only [visitType, List.append_assoc, visitTypes_eq] at ha
    rcases he with rfl | he
    · refine ⟨last.isSome, n, ?_, name, rfl, external_name hp, ?_⟩
      · simp only [Ty.erase, List.map_map, nameIn, Function.comp_def]
        exact .here
      · have := ha.mid
        rw [length_pathCalls] at this
        simpa using this
    · simp only [externalsList_eq, List.mem_flatMap] at he
      obtain ⟨t, ht, he⟩ := he
      rcases hp.parts with ⟨_, rfl⟩ | ⟨⟨a, rfl⟩, hl⟩
      · cases ht
      · obtain ⟨i, hi⟩ := List.getElem?_of_mem ht
        have ha1 := ha.right.right.right.left
        rw [length_pathCalls] at ha1
        obtain ⟨ht', ha2⟩ := list_at (items := typeItems) (m := Ty.erase) hl (fun _ h => ParsedTy.len h) ha1 hi
        obtain ⟨tr, m, h1, h2⟩ := ih t ht _ ht' ha2 e he
        refine ⟨tr, m, ?_, h2⟩
        simp only [Ty.erase]
        refine .argument (i := i) (Compiler.map_getElem? hi) ?_
        simpa using h1
theorem exts_at (source : Text) (C : List Call) : ∀ (ts : List Ty), ∀ t ∈ ts, ExtsAt source C t
  | [] => fun _ h => nomatch h
  | t :: ts => by
    have h1 := ext_at source C t
    have h2 := exts_at source C ts
    intro u hu
    rcases List.mem_cons.1 hu with e | hu
    · rw [e]; exact h1
    · exact h2 u hu
end

end Mabo.Labels
