import Verif.Parser.ReportMain
/-!
For which texts the report of a syntax error has no label.
-/
namespace Mabo.Failing
open Mabo.Parse (Text Std P isSpace isMulti)
open Mabo.Spec.Report Mabo.Spec.Errors
open Mabo.Ast

/-! ### Where a definition does not start -/

theorem cutErr_ne_back {α : Type} {p : P α} (s : Text) : Parse.cutErr p s ≠ .back := fun h => by
  rw [Parse.cutErr] at h
  cases hp : p s <;> rw [hp] at h <;> cases h

theorem map_back {α β : Type} {p : P α} {f : α → β} {s : Text} :
    (p >>= fun a => (pure (f a) : P β)) s = .back ↔ p s = .back := by
  rw [Parse.bind_run]
  cases hp : p s with
  | ok a r => exact ⟨fun h => (nomatch h), fun h => (nomatch h)⟩
  | back => exact ⟨fun _ => rfl, fun _ => rfl⟩
  | cut => exact ⟨fun h => (nomatch h), fun h => (nomatch h)⟩

theorem keyword_back {α : Type} {k : String} {q : P α} {s : Text} :
    (do Parse.lit k; let _ ← Parse.space1; Parse.cutErr q : P α) s = .back ↔ ¬ Opens k s := by
  rw [Parse.bind_run, Parse.lit]
  cases hd : Parse.dropPrefix k.toList s with
  | none =>
    refine ⟨fun _ ho => ?_, fun _ => rfl⟩
    obtain ⟨c, r, rfl, _⟩ := ho
    rw [Parse.dropPrefix_append] at hd
    cases hd
  | some r =>
    have hs := Parse.dropPrefix_eq_some hd
    subst hs
    simp only
    rw [Parse.bind_run, Parse.space1, Parse.takeWhile]
    have hop : Opens k (k.toList ++ r) ↔ 1 ≤ (r.takeWhile isSpace).length := by
      constructor
      · rintro ⟨c, r', h1, h2⟩
        rw [List.append_cancel_left h1, List.takeWhile_cons, if_pos h2]
        simp
      · intro h
        cases r with
        | nil => simp at h
        | cons c r' =>
          by_cases hc : isSpace c = true
          · exact ⟨c, r', rfl, hc⟩
          · rw [List.takeWhile_cons, if_neg hc] at h
            simp at h
    by_cases hl : (r.takeWhile isSpace).length < 1
    · rw [if_pos hl]
      exact ⟨fun _ ho => by have := hop.1 ho; omega, fun _ => rfl⟩
    · rw [if_neg hl]
      exact ⟨fun h => (cutErr_ne_back _ h).elim, fun h => (h (hop.2 (by omega))).elim⟩

theorem opens_head {k : String} {s : Text} {c d : Char} (hk : k.toList.head? = some c) (hs : s.head? = some d) (h : d ≠ c) :
    ¬ Opens k s := by
  rintro ⟨x, r, rfl, _⟩
  cases hw : k.toList with
  | nil => rw [hw] at hk; cases hk
  | cons a w =>
    rw [hw] at hk hs
    cases hk
    cases hs
    exact h rfl

theorem defKind_back {std : Std} {rec : P Definition} {s : Text} :
    Parse.defKind std rec s = .back ↔ ∀ k ∈ keywords, ¬ Opens k s := by
  rw [Parse.defKind, Parse.bind_run]
  cases s with
  | nil =>
    refine ⟨fun _ k hk ho => ?_, fun _ => rfl⟩
    obtain ⟨c, r, h, _⟩ := ho
    have := congrArg List.length h
    simp at this
  | cons c s =>
    simp only [Parse.peekAny, keywords, List.forall_mem_cons]
    have n_m : c ≠ 'm' → ¬ Opens "mod" (c :: s) := fun h => opens_head (by decide) rfl h
    have n_s : c ≠ 's' → ¬ Opens "struct" (c :: s) := fun h => opens_head (by decide) rfl h
    have n_e : c ≠ 'e' → ¬ Opens "enum" (c :: s) := fun h => opens_head (by decide) rfl h
    have n_c : c ≠ 'c' → ¬ Opens "const" (c :: s) := fun h => opens_head (by decide) rfl h
    have n_t : c ≠ 't' → ¬ Opens "type" (c :: s) := fun h => opens_head (by decide) rfl h
    have n_u : c ≠ 'u' → ¬ Opens "use" (c :: s) := fun h => opens_head (by decide) rfl h
    by_cases h_m : c = 'm'
    · subst h_m
      rw [if_pos rfl]
      exact (keyword_back (k := "mod")).trans ⟨fun h => ⟨h, n_s (by decide), n_e (by decide), n_c (by decide), n_t (by decide), n_u (by decide), fun _ h => (nomatch h)⟩,
        fun h => h.1⟩
    rw [if_neg h_m]
    by_cases h_s : c = 's'
    · subst h_s
      rw [if_pos rfl]
      exact (map_back.trans (keyword_back (k := "struct"))).trans ⟨fun h => ⟨n_m (by decide), h, n_e (by decide), n_c (by decide), n_t (by decide), n_u (by decide), fun _ h => (nomatch h)⟩,
        fun h => h.2.1⟩
    rw [if_neg h_s]
    by_cases h_e : c = 'e'
    · subst h_e
      rw [if_pos rfl]
      exact (map_back.trans (keyword_back (k := "enum"))).trans ⟨fun h => ⟨n_m (by decide), n_s (by decide), h, n_c (by decide), n_t (by decide), n_u (by decide), fun _ h => (nomatch h)⟩,
        fun h => h.2.2.1⟩
    rw [if_neg h_e]
    by_cases h_c : c = 'c'
    · subst h_c
      rw [if_pos rfl]
      exact (map_back.trans (keyword_back (k := "const"))).trans ⟨fun h => ⟨n_m (by decide), n_s (by decide), n_e (by decide), h, n_t (by decide), n_u (by decide), fun _ h => (nomatch h)⟩,
        fun h => h.2.2.2.1⟩
    rw [if_neg h_c]
    by_cases h_t : c = 't'
    · subst h_t
      rw [if_pos rfl]
      exact (map_back.trans (keyword_back (k := "type"))).trans ⟨fun h => ⟨n_m (by decide), n_s (by decide), n_e (by decide), n_c (by decide), h, n_u (by decide), fun _ h => (nomatch h)⟩,
        fun h => h.2.2.2.2.1⟩
    rw [if_neg h_t]
    by_cases h_u : c = 'u'
    · subst h_u
      rw [if_pos rfl]
      exact (map_back.trans (keyword_back (k := "use"))).trans ⟨fun h => ⟨n_m (by decide), n_s (by decide), n_e (by decide), n_c (by decide), n_t (by decide), h, fun _ h => (nomatch h)⟩,
        fun h => h.2.2.2.2.2.1⟩
    rw [if_neg h_u]
    exact ⟨fun _ => ⟨n_m h_m, n_s h_s, n_e h_e, n_c h_c, n_t h_t, n_u h_u, fun _ h => (nomatch h)⟩, fun _ => rfl⟩

theorem sp_run' {α : Type} (p : P α) (s : Text) : Parse.sp p s = p (s.dropWhile isSpace) := by
  rw [Parse.sp, Parse.bind_run, Parse.space0, Parse.takeWhile, if_neg (Nat.not_lt_zero _)]

theorem ws_ne_back {α : Type} {p : P α} (h : ∀ s, p s ≠ .back) (s : Text) : Parse.ws p s ≠ .back := fun hb => by
  rw [Parse.ws, Parse.bind_run, Parse.multi0, Parse.takeWhile, if_neg (Nat.not_lt_zero _)] at hb
  exact h _ hb

theorem manyAux_ne_back {α : Type} {p : P α} : ∀ n s, Parse.manyAux p n s ≠ .back
  | 0, s => fun h => (nomatch h)
  | n + 1, s => fun h => by
    rw [Parse.manyAux] at h
    cases hp : p s with
    | ok a r =>
      rw [hp] at h
      simp only at h
      split at h
      · cases h
      · cases hm : Parse.manyAux p n r with
        | ok as r' => rw [hm] at h; cases h
        | back => exact manyAux_ne_back n r hm
        | cut => rw [hm] at h; cases h
    | back => rw [hp] at h; cases h
    | cut => rw [hp] at h; cases h

theorem parseDefinition_back {std : Std} {s : Text} : Parse.parseDefinition std s = .back ↔ NoKeyword std s := by
  rw [Parse.parseDefinition, Parse.defDepth, Parse.defBody, Parse.bind_run]
  constructor
  · intro h
    cases h1 : Parse.ws Parse.parseComments s with
    | back => exact (ws_ne_back (fun s => manyAux_ne_back _ s) s h1).elim
    | cut => rw [h1] at h; cases h
    | ok c r =>
      rw [h1] at h
      simp only at h
      rw [Parse.bind_run] at h
      cases h2 : Parse.ws (Parse.parseAttributes std) r with
      | back =>
        refine (ws_ne_back (fun s hb => ?_) r h2).elim
        rw [Parse.parseAttributes, map_back] at hb
        exact manyAux_ne_back _ _ hb
      | cut => rw [h2] at h; cases h
      | ok a r' =>
        rw [h2] at h
        simp only at h
        rw [map_back, sp_run', defKind_back] at h
        exact ⟨c, r, a, r', h1, h2, h⟩
  · rintro ⟨c, r, a, r', h1, h2, h⟩
    rw [h1]
    simp only
    rw [Parse.bind_run, h2]
    simp only
    rw [map_back, sp_run', defKind_back]
    exact h

/-! ### The error of a text -/

theorem parseDefinition_final {std : Std} {s r : Text} {e : DefinitionError} (h : parseDefinition std s = .fail true e r) (pos : Text) :
    e ≠ .parser pos := by
  intro he
  subst he
  rw [parseDefinition, defDepth, defBody] at h
  rcases bind_fail h with h | ⟨c, m, _, h⟩
  · exact wsComments_ok h
  rcases bind_fail h with h | ⟨a, m', _, h⟩
  · rw [ws_run] at h
    obtain ⟨e', _, he⟩ := mapErr_fail h
    cases he
  rcases bind_fail h with h | ⟨a, m', _, h⟩
  · rw [sp_run, defKind] at h
    rcases bind_fail h with h | ⟨c, m'', _, h⟩
    · cases (peekAny_fail h).1
    rcases ite_fail h with ⟨_, h⟩ | ⟨_, h⟩
    · obtain ⟨e', _, he⟩ := mapErr_fail h
      cases he
    rcases ite_fail h with ⟨_, h⟩ | ⟨_, h⟩
    · rcases bind_fail h with h | ⟨_, _, _, h⟩
      · obtain ⟨e', _, he⟩ := mapErr_fail h
        cases he
      · cases h
    rcases ite_fail h with ⟨_, h⟩ | ⟨_, h⟩
    · rcases bind_fail h with h | ⟨_, _, _, h⟩
      · obtain ⟨e', _, he⟩ := mapErr_fail h
        cases he
      · cases h
    rcases ite_fail h with ⟨_, h⟩ | ⟨_, h⟩
    · rcases bind_fail h with h | ⟨_, _, _, h⟩
      · obtain ⟨e', _, he⟩ := mapErr_fail h
        cases he
      · cases h
    rcases ite_fail h with ⟨_, h⟩ | ⟨_, h⟩
    · rcases bind_fail h with h | ⟨_, _, _, h⟩
      · obtain ⟨e', _, he⟩ := mapErr_fail h
        cases he
      · cases h
    rcases ite_fail h with ⟨_, h⟩ | ⟨_, h⟩
    · rcases bind_fail h with h | ⟨_, _, _, h⟩
      · obtain ⟨e', _, he⟩ := mapErr_fail h
        cases he
      · cases h
    · cases (fail_fail h).1
  · cases h

theorem manyAux_stops {α : Type} {p : P α} : ∀ {n s as r}, Parse.manyAux p n s = .ok as r → p r = .back
  | 0, s, as, r, h => (nomatch h)
  | n + 1, s, as, r, h => by
    rw [Parse.manyAux] at h
    cases hp : p s with
    | ok a r' =>
      rw [hp] at h
      simp only at h
      split at h
      · cases h
      · cases hm : Parse.manyAux p n r' with
        | ok as' r'' =>
          rw [hm] at h
          cases h
          exact manyAux_stops hm
        | back => rw [hm] at h; cases h
        | cut => rw [hm] at h; cases h
    | back => rw [hp] at h; cases h; exact hp
    | cut => rw [hp] at h; cases h

theorem Reads.same {std : Std} {s : Text} {ds ds' : List Definition} {r r' : Text} (h : Reads std s ds r) (h' : Reads std s ds' r')
    (hr : Unreadable (Parse.parseDefinition std) r) (hr' : Unreadable (Parse.parseDefinition std) r') : r = r' := by
  induction h generalizing ds' with
  | nil =>
    cases h' with
    | nil => rfl
    | cons h1 _ => exact (hr _ _ h1).elim
  | cons h1 _ ih =>
    cases h' with
    | nil => exact (hr' _ _ h1).elim
    | cons h2 h3 => rw [h1] at h2; cases h2; exact ih h3 hr

theorem Header.same {text r r' : Text} (h : Header text r) (h' : Header text r') : r = r' := by
  rcases h with ⟨c, h⟩ | ⟨h, rfl⟩ <;> rcases h' with ⟨c', h'⟩ | ⟨h', rfl⟩
  · rw [h] at h'; cases h'; rfl
  · exact (h' _ _ h).elim
  · exact (h _ _ h').elim
  · rfl

/-- The error of a text, and how the definition behind those that can be read fails. -/
theorem schema_kind (std : Std) {text : Text} {e : SchemaCause} (h : parseSchema std text = .error e) :
    ∃ body ds rest, Header text body ∧ Reads std body ds rest ∧
      ((Parse.parseDefinition std rest = .back ∧ ∃ pos, e = .parser pos) ∨
       (Parse.parseDefinition std rest = .cut ∧ ∃ e', e = .definition e' ∧ ∀ pos, e' ≠ .parser pos)) := by
  unfold parseSchema at h
  cases hp : (do let s ← schemaParser std; eof; pure s : F SchemaCause Ast.Schema) text with
  | ok s r => rw [hp] at h; cases h
  | fail b e' r =>
    rw [hp] at h
    cases h
    rcases bind_fail hp with h | ⟨sc, m, h1, h⟩
    · rcases bind_fail h with h | ⟨o, body, h1, h⟩
      · obtain ⟨_, h⟩ := opt_fail h
        rcases bind_fail h with h | ⟨_, _, _, h⟩
        · exact absurd h fun h => wsComments_ok h
        rcases bind_fail h with h | ⟨_, _, _, h⟩
        · cases (chr_fail h).1
        · cases h
      have hh : Header text body := by
        rcases Parse.opt_eq_ok (sim_ok (sim_opt header_sim) h1) with ⟨c, _, h2⟩ | ⟨_, h2, h3⟩
        · exact .inl ⟨c, h2⟩
        · exact .inr ⟨fun a r h4 => by (rw [h4] at h3; cases h3), h2⟩
      rcases bind_fail h with h | ⟨_, _, _, h⟩
      · rcases definitions_reads std (n := body.length + 1) (s := body) (by omega) with ⟨ds, rest, h2, _⟩ | ⟨e', r', ds, rest, h2, h3, h4, h5⟩
        · rw [many, h2] at h; cases h
        · rw [many, h2] at h
          cases h
          refine ⟨body, ds, rest, hh, h3, .inr ⟨?_, e', rfl, parseDefinition_final h4⟩⟩
          rw [← sim_parseDefinition std rest, h4]
          rfl
      · rcases bind_fail h with h | ⟨_, _, _, h⟩
        · have := (takeWhile_fail h).2.2.2; omega
        · cases h
    · rcases bind_fail h with he | ⟨_, _, _, h⟩
      · obtain ⟨o, body, h2, h1⟩ := bind_eq_ok h1
        obtain ⟨ds, rest, h3, h1⟩ := bind_eq_ok h1
        have hh : Header text body := by
          rcases Parse.opt_eq_ok (sim_ok (sim_opt header_sim) h2) with ⟨c, _, h2⟩ | ⟨_, h2, h3⟩
          · exact .inl ⟨c, h2⟩
          · exact .inr ⟨fun a r h4 => by (rw [h4] at h3; cases h3), h2⟩
        have hb := manyAux_stops (sim_ok (sim_many (sim_mapErr (sim_parseDefinition std))) h3)
        rcases definitions_reads std (n := body.length + 1) (s := body) (by omega) with ⟨ds', rest', h5, h6, h7⟩ | ⟨e', r', ds', rest', h5, _⟩
        · rw [many, h5] at h3
          cases h3
          refine ⟨body, _, _, hh, h6, .inl ⟨hb, m, ?_⟩⟩
          have h0 : (if m = [] then R.ok () m else .fail false (SchemaCause.parser m) m) = .fail b e r := he
          by_cases hm : m = []
          · rw [if_pos hm] at h0; cases h0
          · rw [if_neg hm] at h0; cases h0; rfl
        · rw [many, h5] at h3; cases h3
      · cases h

end Mabo.Failing
