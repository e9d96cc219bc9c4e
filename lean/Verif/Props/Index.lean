import Verif.Lsp.IndexLemmas
import Verif.Spec.Index
import Verif.Props.Server
/-! Properties of positions in the language server: C57 (the announced encoding is the one in use) and C58 (positions behind
the end of a line). -/
namespace Mabo.Props
open Mabo.Lsp Mabo.Spec Mabo.Spec.Diag

/-! ## C57: position encodings -/

/-- The encodings of the protocol. -/
def protocolNames : List String := ["utf-8", "utf-16", "utf-32"]

theorem unit_of_name (enc : Encoding) : unitOf (wideEncoding enc.name) = enc := by cases enc <;> rfl

/-- Whatever encodings of the protocol a client offers (none at all, an empty list, any list): the server announces the one
that the client prefers, UTF-16 if it has no preference; and in every text, byte offsets and positions are converted in that
encoding, in both directions. -/
theorem C57_announced_encoding (offered : Option (List String)) (h : ∀ l, offered = some l → ∀ e ∈ l, e ∈ protocolNames) :
    ∃ enc : Encoding, negotiate offered = enc.name ∧
      (offered = none ∨ offered = some [] → enc = .utf16) ∧ (∀ e l, offered = some (e :: l) → e = enc.name) ∧
      (∀ a b : Text, getOffset (negotiate offered) (a ++ b) (posOf enc a) = some (bytes a)) ∧
      (∀ a b : Text, getPosition (negotiate offered) (a ++ b) (bytes a) = some (posOf enc a)) := by
  have key : ∀ enc : Encoding, negotiate offered = enc.name →
      (∀ a b : Text, getOffset (negotiate offered) (a ++ b) (posOf enc a) = some (bytes a)) ∧
      (∀ a b : Text, getPosition (negotiate offered) (a ++ b) (bytes a) = some (posOf enc a)) := by
    intro enc he
    have h1 := getOffset_contract (negotiate offered)
    have h2 := getPosition_contract (negotiate offered)
    rw [he, unit_of_name] at h1 h2
    rw [he]
    exact ⟨h1, h2⟩
  cases offered with
  | none => exact ⟨.utf16, rfl, fun _ => rfl, fun _ _ h => (nomatch h), (key .utf16 rfl).1, (key .utf16 rfl).2⟩
  | some l =>
    cases l with
    | nil => exact ⟨.utf16, rfl, fun _ => rfl, fun _ _ h => (nomatch h), (key .utf16 rfl).1, (key .utf16 rfl).2⟩
    | cons e l =>
      obtain ⟨enc, he⟩ : ∃ enc : Encoding, e = enc.name := by
        have := h _ rfl e List.mem_cons_self
        simp only [protocolNames, List.mem_cons, List.not_mem_nil, or_false] at this
        rcases this with rfl | rfl | rfl
        · exact ⟨.utf8, rfl⟩
        · exact ⟨.utf16, rfl⟩
        · exact ⟨.utf32, rfl⟩
      have hn : negotiate (some (e :: l)) = enc.name := he
      refine ⟨enc, hn, fun h => (by rcases h with h | h <;> cases h), fun e' l' h' => ?_, (key enc hn).1, (key enc hn).2⟩
      simp only [Option.some.injEq, List.cons.injEq] at h'
      rw [← h'.1, he]

theorem loadFiles_consistent {Uri : Type} [DecidableEq Uri] : ∀ (files : List (Uri × Text)) (fs : Files Uri), Consistent fs →
    Consistent (files.foldl (fun fs f => Lsp.insert fs f.1 (createFile f.2)) fs) := by
  intro files
  induction files with
  | nil => intro fs h; exact h
  | cons f files ih => intro fs h; exact ih _ (consistent_insert h _ _)

/-- Documents in sync (C46), with the real index, in the encoding that was announced, and whatever files of the workspace were
loaded at the start. Missing: what is missing in C46. -/
theorem C57_in_sync_partial {Uri : Type} [DecidableEq Uri] (offered : Option (List String))
    (h : ∀ l, offered = some l → ∀ e ∈ l, e ∈ protocolNames) (loaded : List (Uri × Text)) :
    ∃ enc : Encoding, negotiate offered = enc.name ∧ ∀ (ns : List (Notification Uri)) (d : Docs Uri),
      History enc (Orderly enc) noDocs ns d →
      ∃ fs, run (getOffset (negotiate offered)) (loadFiles loaded) ns = .ok fs ∧
        ∀ u t, d u = some t → content fs u = some t := by
  obtain ⟨enc, h1, _, _, h2, _⟩ := C57_announced_encoding offered h
  refine ⟨enc, h1, fun ns d hh => ?_⟩
  obtain ⟨fs, h3, h4⟩ := run_synced h2 hh (fs := loadFiles loaded)
    ⟨loadFiles_consistent loaded [] (fun _ _ h => (nomatch h)), fun _ _ h => (nomatch h)⟩
  refine ⟨fs, h3, fun u t hu => ?_⟩
  unfold content
  rw [h4.2 u t hu]
  rfl

/-- With the real index, the sessions of C56 need no assumption about positions. -/
theorem C57_sessions {Uri Json : Type} [DecidableEq Uri] (offered : Option (List String))
    (h : ∀ l, offered = some l → ∀ e ∈ l, e ∈ protocolNames) (reader : Reader Uri Json) (env : Env)
    (hp : PickContract env.pick) (hf : FailureContract env.failure) :
    ∃ enc : Encoding, negotiate offered = enc.name ∧
      Works enc ⟨reader, env, getOffset (negotiate offered), getPosition (negotiate offered)⟩ := by
  obtain ⟨enc, h1, _, _, h2, h3⟩ := C57_announced_encoding offered h
  exact ⟨enc, h1, h2, h3, hp, hf⟩

/-- Beyond the property: a name that the protocol does not define is announced as well, but positions are in UTF-16. -/
theorem C57_unknown_encoding (e : String) (l : List String) (h : e ∉ protocolNames) :
    negotiate (some (e :: l)) = e ∧ OffsetContract .utf16 (getOffset e) ∧ PositionContract .utf16 (getPosition e) := by
  have : wideEncoding e = some .utf16 := by
    unfold wideEncoding
    rw [if_neg (fun h' : e = "utf-8" => h (by rw [h']; simp [protocolNames])),
      if_neg (fun h' : e = "utf-32" => h (by rw [h']; simp [protocolNames]))]
  have h1 := getOffset_contract e
  have h2 := getPosition_contract e
  rw [this] at h1 h2
  exact ⟨rfl, h1, h2⟩

/-- A client that prefers UTF-8, and a text with characters of one to four bytes. -/
example : negotiate (some ["utf-8", "utf-16"]) = "utf-8" ∧
    getPosition "utf-8" "aß\n€😀b".toList 11 = some ⟨1, 7⟩ ∧ getPosition "utf-16" "aß\n€😀b".toList 11 = some ⟨1, 3⟩ ∧
    getPosition "utf-32" "aß\n€😀b".toList 11 = some ⟨1, 2⟩ ∧ getOffset "utf-16" "aß\n€😀b".toList ⟨1, 3⟩ = some 11 := by
  decide +kernel

/-! ## C58: positions behind the end of a line -/

/-- Places that are named by their own position. Missing from the full claim (`C58_full`): positions that are to the right of
the end of their line; see the theorems below. -/
theorem C58_denoted_place_partial (enc : Encoding) (p : Position) (a b : Text) (h : posOf enc a = p) :
    DenotesPlace enc p a b ∧ getOffset enc.name (a ++ b) p = some (bytes a) := by
  subst h
  refine ⟨.inl rfl, ?_⟩
  have := getOffset_contract enc.name a b
  rwa [unit_of_name] at this

/-- The full claim. -/
def C58_full : Prop := ∀ (enc : Encoding) (p : Position) (a b : Text), DenotesPlace enc p a b →
  getOffset enc.name (a ++ b) p = some (bytes a)

/-- What the server does instead, for every text and every line of it: it counts on, byte by byte, into the lines below. -/
theorem C58_behind_the_line (enc : Encoding) (a b : Text) (hb : b = [] ∨ ∃ b', b = '\n' :: b') (n : Nat) :
    getOffset enc.name (a ++ b) ⟨(posOf enc a).line, (posOf enc a).character + n⟩ = some (bytes a + n) := by
  have := getOffset_past enc.name a b hb n
  rwa [unit_of_name] at this

/-- So the full claim is false at the end of every line of every text. -/
theorem C58_fails : ¬ C58_full := by
  intro h
  have h1 := h .utf16 ⟨0, 2⟩ "a".toList "\nb".toList (.inr ⟨by decide, by decide, .inr ⟨['b'], by decide⟩⟩)
  revert h1
  decide +kernel

theorem applyChanges_one (offset : Text → Position → Option Nat) (t : Text) (ch : Change) (u : Nat) (hr : ch.range.isSome) :
    run offset ([] : Files Nat) [.didOpen u t, .didChange u [ch]] =
      (applyChanges offset t [ch] t).bind fun r => .ok (Lsp.insert (remove (didOpen [] u t) u) u (createFile r)) := by
  have hg : Lsp.get (didOpen ([] : Files Nat) u t) u = some (createFile t) := get_opened u _
  show (step offset (didOpen ([] : Files Nat) u t) (.didChange u [ch])).bind _ = _
  have hf : isFull [ch] = false := by
    show ch.range.isNone = false
    revert hr; cases ch.range <;> simp
  have hd : step offset (didOpen ([] : Files Nat) u t) (.didChange u [ch]) =
      (applyChanges offset t [ch] t).bind fun r => .ok (Lsp.insert (remove (didOpen [] u t) u) u (createFile r)) := by
    show didChange offset _ u [ch] = _
    unfold didChange
    simp only [hf, hg, updateFile, createFile]
    cases applyChanges offset t [ch] t <;> rfl
  rw [hd]
  cases applyChanges offset t [ch] t <;> rfl

/-- A client that replaces all of a document up to a column behind the end of its last line (which the protocol allows) ends
the server, for every document. -/
theorem C58_fails_with_a_panic (enc : Encoding) (t new : Text) (n : Nat) (hn : 0 < n) (hs : bytes t + n < 2 ^ 32) (u : Nat) :
    DenotesPlace enc ⟨(posOf enc t).line, (posOf enc t).character + n⟩ t [] ∧
      run (getOffset enc.name) ([] : Files Nat) [.didOpen u t,
        .didChange u [⟨some (⟨0, 0⟩, ⟨(posOf enc t).line, (posOf enc t).character + n⟩), new⟩]] = .panic := by
  refine ⟨.inr ⟨rfl, by show _ < _ + n; omega, .inl rfl⟩, ?_⟩
  have h0 : getOffset enc.name t ⟨0, 0⟩ = some 0 := by
    have := getOffset_contract enc.name [] t
    rw [unit_of_name] at this
    exact this
  have h1 := C58_behind_the_line enc t [] (.inl rfl) n
  rw [List.append_nil] at h1
  rw [applyChanges_one _ _ _ _ rfl]
  have hb : byteToChar t 0 = .ok 0 := byteToChar_ok [] t
  have : applyChanges (getOffset enc.name) t
      [⟨some (⟨0, 0⟩, ⟨(posOf enc t).line, (posOf enc t).character + n⟩), new⟩] t = .panic := by
    simp only [applyChanges, convertRange, h0, h1, Outcome.bind]
    rw [if_pos ⟨by omega, hs⟩, if_pos (by omega)]
    simp only [hb, byteToChar_panic (show bytes t < bytes t + n by omega)]
  rw [this]; rfl

/-- A change whose end is on a line behind the last one (another common way to say "up to the end") is dropped: the server
keeps the old text. -/
theorem C58_no_such_line (enc : Encoding) (t new : Text) (p q : Position) (hq : (posOf enc t).line < q.line) (u : Nat) :
    ∃ fs, run (getOffset enc.name) ([] : Files Nat) [.didOpen u t, .didChange u [⟨some (p, q), new⟩]] = .ok fs ∧
      content fs u = some t := by
  have h1 : getOffset enc.name t q = none := getOffset_no_line _ _ _ hq
  have : applyChanges (getOffset enc.name) t [⟨some (p, q), new⟩] t = .ok t := by
    simp only [applyChanges, convertRange]
    cases getOffset enc.name t p <;> simp only [h1, Outcome.bind]
  rw [applyChanges_one _ _ _ _ rfl, this]
  refine ⟨_, rfl, ?_⟩
  unfold content
  rw [get_insert_self]; rfl

/-- A concrete case: typing at column 3 of the first line, which has one character, lands in the second line. -/
example : run (getOffset "utf-16") ([] : Files Nat) [.didOpen 7 "a\nbc\nd".toList,
      .didChange 7 [⟨some (⟨0, 3⟩, ⟨0, 3⟩), "x".toList⟩]] = .ok [(7, createFile "a\nbxc\nd".toList)] ∧
    DenotesPlace .utf16 ⟨0, 3⟩ "a".toList "\nbc\nd".toList :=
  ⟨by decide +kernel, .inr ⟨by decide, by decide, .inr ⟨"bc\nd".toList, by decide⟩⟩⟩

end Mabo.Props
