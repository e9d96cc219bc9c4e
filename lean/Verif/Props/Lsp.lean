import Verif.Lsp.SyncLemmas
/-! Properties of the language server: C46 (the server's documents are the client's). -/
namespace Mabo.Props
open Mabo.Lsp Mabo.Spec

variable {Uri : Type} [DecidableEq Uri]

/-! ## C46: documents in sync -/

/-- Start: nothing is open. -/
def noDocs : Docs Uri := fun _ => none

/-- After every history of openings, changes, closings and deletions, the server is still running and holds the client's
text of every open document, in every position encoding. Missing from the full claim: notifications with several changes
that are not ordered from the back of the document to its front. -/
theorem C46_in_sync_partial (enc : Encoding) (offset : Text → Position → Option Nat) (ho : OffsetContract enc offset)
    (ns : List (Notification Uri)) (d : Docs Uri) (h : History enc (Orderly enc) noDocs ns d) :
    ∃ fs, run offset [] ns = .ok fs ∧ ∀ u t, d u = some t → content fs u = some t := by
  obtain ⟨fs, h1, h2⟩ := run_synced ho h (fs := []) ⟨fun _ _ h => (nomatch h), fun _ _ h => (nomatch h)⟩
  refine ⟨fs, h1, fun u t hu => ?_⟩
  unfold content
  rw [h2.2 u t hu]
  rfl

/-- One notification: whatever the rest of the state, the other documents are not touched. -/
theorem C46_others_untouched (offset : Text → Position → Option Nat) (fs fs' : Files Uri) (u v : Uri) (chs : List Change)
    (h : step offset fs (.didChange u chs) = .ok fs') (hv : v ≠ u) : content fs' v = content fs v := by
  have key : ∀ f, Lsp.get (Lsp.insert fs u f) v = Lsp.get fs v := fun f => get_insert_ne fs f hv
  have h : didChange offset fs u chs = .ok fs' := h
  unfold content
  unfold didChange at h
  split at h
  · cases h; rw [key]
  · split at h
    · cases h; rfl
    · rename_i f _
      cases hu : updateFile (fun index rope => applyChanges offset index _ rope) f with
      | panic => rw [hu] at h; cases h
      | ok f' =>
        rw [hu] at h
        cases h
        rw [insert_remove, key]

theorem get_opened (u : Uri) (t : Text) : Lsp.get (didOpen ([] : Files Uri) u t) u = some (createFile t) := by
  show Lsp.get (Lsp.insert ([] : Files Uri) u (createFile t)) u = _
  exact get_insert_self _ _ _

/-- A document, and two changes as a client would send them: delete the first line; then write at the start of what is
now the second line. -/
def C46_text : Text := "a\nbbb\nc".toList
/-- See `C46_text`. -/
def C46_changes (enc : Encoding) : List Change :=
  [⟨some (posOf enc [], posOf enc "a\n".toList), []⟩,
   ⟨some (posOf enc "bbb\n".toList, posOf enc "bbb\n".toList), "x".toList⟩]

/-- They make this text … -/
theorem C46_client (enc : Encoding) : AppliesAll enc C46_text (C46_changes enc) "bbb\nxc".toList := by
  refine ⟨"bbb\nc".toList, .inr ⟨[], "a\n".toList, "bbb\nc".toList, by decide, rfl, rfl⟩, ?_⟩
  exact ⟨"bbb\nxc".toList, .inr ⟨"bbb\n".toList, [], "c".toList, by decide, by rw [List.append_nil], rfl⟩, rfl⟩

/-- … at the client, but another one at the server: the full claim is false. The second change is placed with the index
of the text before the first one. -/
theorem C46_fails_for_several_changes (enc : Encoding) (offset : Text → Position → Option Nat) (ho : OffsetContract enc offset)
    (u : Uri) : ∃ fs, run offset [] [.didOpen u C46_text, .didChange u (C46_changes enc)] = .ok fs ∧
      content fs u = some "bbxb\nc".toList := by
  have h0 := ho [] C46_text
  have h1 := ho "a\n".toList "bbb\nc".toList
  have h2 := ho "a\n".toList "bbb\nc".toList
  have e : posOf enc "bbb\n".toList = posOf enc "a\n".toList := by cases enc <;> decide
  refine ⟨Lsp.insert (remove (didOpen [] u C46_text) u) u (createFile "bbxb\nc".toList), ?_, ?_⟩
  · have hg : Lsp.get (didOpen ([] : Files Uri) u C46_text) u = some (createFile C46_text) := get_opened u _
    have ha : applyChanges offset C46_text (C46_changes enc) C46_text = .ok "bbxb\nc".toList := by
      have h0 : offset C46_text (posOf enc []) = some 0 := h0
      have h1 : offset C46_text (posOf enc "a\n".toList) = some 2 := h1
      simp only [C46_changes, applyChanges, convertRange, h0, h1, e]
      decide
    show (step offset ([] : Files Uri) (.didOpen u C46_text)).bind _ = _
    show (step offset (didOpen ([] : Files Uri) u C46_text) (.didChange u (C46_changes enc))).bind _ = _
    have hd : step offset (didOpen ([] : Files Uri) u C46_text) (.didChange u (C46_changes enc)) =
        .ok (Lsp.insert (remove (didOpen [] u C46_text) u) u (createFile "bbxb\nc".toList)) := by
      show didChange offset _ u (C46_changes enc) = _
      unfold didChange
      have hf : isFull (C46_changes enc) = false := rfl
      simp only [C46_changes] at ha hf ⊢
      simp only [hf, hg, updateFile, createFile, ha, Outcome.bind]
    rw [hd]; rfl
  · unfold content
    rw [get_insert_self]; rfl

/-- The document shrinks: delete the first line, then write at the end. -/
def C46_shrinking (enc : Encoding) : List Change :=
  [⟨some (posOf enc [], posOf enc "aaaa\n".toList), []⟩,
   ⟨some (posOf enc "b\n".toList, posOf enc "b\n".toList), "x".toList⟩]

/-- These changes end the server. -/
theorem C46_fails_with_a_panic (enc : Encoding) (offset : Text → Position → Option Nat) (ho : OffsetContract enc offset)
    (u : Uri) : AppliesAll enc "aaaa\nb\n".toList (C46_shrinking enc) "b\nx".toList ∧
      run offset [] [.didOpen u "aaaa\nb\n".toList, .didChange u (C46_shrinking enc)] = .panic := by
  constructor
  · refine ⟨"b\n".toList, .inr ⟨[], "aaaa\n".toList, "b\n".toList, by decide, rfl, rfl⟩, ?_⟩
    exact ⟨"b\nx".toList, .inr ⟨"b\n".toList, [], [], by decide, by rw [List.append_nil], rfl⟩, rfl⟩
  · have h0 : offset "aaaa\nb\n".toList (posOf enc []) = some 0 := ho [] "aaaa\nb\n".toList
    have h1 : offset "aaaa\nb\n".toList (posOf enc "aaaa\n".toList) = some 5 := ho "aaaa\n".toList "b\n".toList
    have e : posOf enc "b\n".toList = posOf enc "aaaa\n".toList := by cases enc <;> decide
    have hg : Lsp.get (didOpen ([] : Files Uri) u "aaaa\nb\n".toList) u = some (createFile "aaaa\nb\n".toList) := get_opened u _
    have ha : applyChanges offset "aaaa\nb\n".toList (C46_shrinking enc) "aaaa\nb\n".toList = .panic := by
      simp only [C46_shrinking, applyChanges, convertRange, h0, h1, e]
      decide
    show (step offset (didOpen ([] : Files Uri) u "aaaa\nb\n".toList) (.didChange u (C46_shrinking enc))).bind _ = _
    have hd : step offset (didOpen ([] : Files Uri) u "aaaa\nb\n".toList) (.didChange u (C46_shrinking enc)) = .panic := by
      show didChange offset _ u (C46_shrinking enc) = _
      unfold didChange
      have hf : isFull (C46_shrinking enc) = false := rfl
      simp only [C46_shrinking] at ha hf ⊢
      simp only [hf, hg, updateFile, createFile, ha, Outcome.bind]
    rw [hd]; rfl

/-- Two changes of the whole text in one notification are both ignored. -/
theorem C46_fails_for_two_full_changes (enc : Encoding) (offset : Text → Position → Option Nat) (u : Uri) (t t1 t2 : Text) :
    AppliesAll enc t [⟨none, t1⟩, ⟨none, t2⟩] t2 ∧
      ∃ fs, run offset [] [.didOpen u t, .didChange u [⟨none, t1⟩, ⟨none, t2⟩]] = .ok fs ∧ content fs u = some t := by
  refine ⟨⟨t1, .inl ⟨rfl, rfl⟩, t2, .inl ⟨rfl, rfl⟩, rfl⟩,
    Lsp.insert (remove (didOpen [] u t) u) u (createFile t), ?_, ?_⟩
  · have hg : Lsp.get (didOpen ([] : Files Uri) u t) u = some (createFile t) := get_opened u _
    have hd : step offset (didOpen ([] : Files Uri) u t) (.didChange u [⟨none, t1⟩, ⟨none, t2⟩]) =
        .ok (Lsp.insert (remove (didOpen [] u t) u) u (createFile t)) := by
      show didChange offset (didOpen ([] : Files Uri) u t) u [⟨none, t1⟩, ⟨none, t2⟩] = _
      simp only [didChange, isFull, hg, updateFile, createFile, applyChanges, convertRange, Outcome.bind]
    show (step offset (didOpen ([] : Files Uri) u t) _).bind _ = _
    rw [hd]; rfl
  · unfold content
    rw [get_insert_self]; rfl

/-- A file that is deleted while it is open is forgotten: later changes are lost. -/
theorem C46_deleted_while_open (offset : Text → Position → Option Nat) (u : Uri) (t : Text) (chs : List Change)
    (hc : isFull chs = false) :
    run offset [] [.didOpen u t, .didDelete [u], .didChange u chs] = .ok ([] : Files Uri) := by
  have h : didDelete (didOpen ([] : Files Uri) u t) [u] = [] := by
    show didDelete (Lsp.insert ([] : Files Uri) u (createFile t)) [u] = []
    simp [didDelete, Lsp.insert, remove]
  show (step offset (didDelete (didOpen ([] : Files Uri) u t) [u]) (.didChange u chs)).bind _ = _
  rw [h]
  have hd : step offset ([] : Files Uri) (.didChange u chs) = .ok [] := by
    show didChange offset [] u chs = _
    unfold didChange
    split
    · rename_i h; rw [hc] at h; cases h
    · rfl
  rw [hd]; rfl

/-- An editor with several cursors sends changes from the back to the front. -/
def C46_cursors (enc : Encoding) : List Change :=
  [⟨some (posOf enc "a\n😀".toList, posOf enc "a\n😀b".toList), "x\ny".toList⟩, ⟨some (posOf enc [], posOf enc "a".toList), []⟩]

/-- What `C46_in_sync_partial` speaks about: such a history, and an index that meets the contract. -/
theorem C46_example (enc : Encoding) : OffsetContract enc (searchOffset enc) ∧
    ∃ d : Docs Nat, d 7 = some "\n😀x\nyc".toList ∧
      History enc (Orderly enc) noDocs [.didOpen 7 "a\n😀bc".toList, .didChange 7 (C46_cursors enc), .didDelete [8]] d := by
  refine ⟨searchOffset_contract enc, ?_⟩
  have hb : BackToFront enc "a\n😀bc".toList [] (C46_cursors enc) "\n😀x\nyc".toList := by
    refine ⟨"a\n😀".toList, "b".toList, "c".toList, by decide, rfl, ?_⟩
    exact ⟨[], "a".toList, "\n😀".toList, by decide, rfl, rfl⟩
  have ha := backToFront_applies hb
  rw [List.append_nil] at ha
  refine ⟨_, ?_, .cons (.open noDocs 7 _) trivial (.cons (.change _ 7 "a\n😀bc".toList _ _ ?_ ha) ?_
    (.cons (.delete _ [8] ?_) trivial (.nil _)))⟩
  · simp [Docs.set]
  · simp [Docs.set]
  · intro t ht
    simp only [Docs.set, if_true] at ht
    cases ht
    exact ⟨by decide, .inr ⟨_, hb⟩⟩
  · intro u hu
    rw [List.mem_singleton.1 hu]
    simp [Docs.set, noDocs]

end Mabo.Props
