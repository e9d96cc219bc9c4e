import Verif.Go.RunWitness
/-! Optional fields that are set. -/
namespace Mabo.Go
open Mabo.Simplify Mabo.Spec.GoRun
open Mabo.Schema (Prim FieldKind)
open Mabo.Parse (Text printNat)

/-- An optional field that is set: its id and value. -/
theorem enc_some {ρ : Runtime} {tag : Nat → List UInt8} (ho : FieldOptions ρ tag)
    {k : Nat} {Γ : Env} {t : Text} {g : Text → Val} {w : List UInt8} (hΓ : EncVars Γ t g w) {f : Field} {p : Prim} {v : Val} {bs : List UInt8}
    (hp : ∀ w, lib ρ (n "Encode" ++ n (fnPrim p)) [] [] [.bytes w, v] = some [.bytes (w ++ bs)]) (hty : f.ty = .option (.prim p))
    (hv : g (fieldName f) = .ptr v) {s : Stmt} (he : encFieldTree f = some s) :
    run ρ k Γ s = some (.next (update Γ (n "w") (.bytes (w ++ (tag f.id.toNat ++ bs))))) := by
  simp only [encFieldTree, hty, Option.bind_eq_bind, Option.bind_eq_some_iff, Option.pure_def, Option.some.injEq] at he
  obtain ⟨g', _, y, hy, rfl⟩ := he
  simp only [encTree, Option.some.injEq] at hy
  subst hy
  refine run_assign (Is.value ?_) (store_var hΓ.w)
  refine (value_call (eval_inst hΓ.buf _ _) (evalArgs_val (.var hΓ.w) (evalArgs_val (.nat _ _ _)
    (evalArgs_val (Is.addr (Is.field hΓ.v)) (evalArgs_fn (evalArgs_nil _ _)))))).trans ?_
  rw [hv, ho.some]
  have hd : define Γ [n "w", n "v"] [.bytes (w ++ tag f.id.toNat), v] =
    some ((n "w", .bytes (w ++ tag f.id.toNat)) :: (n "v", v) :: Γ) := rfl
  have hval : valueOf ρ ((n "w", .bytes (w ++ tag f.id.toNat)) :: (n "v", v) :: Γ)
      (.call (buf (n "Encode" ++ n (fnPrim p))) [var "w", var "v"]) = some [.bytes (w ++ tag f.id.toNat ++ bs)] := by
    refine (value_call (eval_buf ?_ _) (evalArgs_val (.var ?_) (evalArgs_val (.var ?_) (evalArgs_nil _ _)))).trans (hp _)
    · rw [lookup_cons, if_neg (by decide), lookup_cons, if_neg (by decide), hΓ.buf]
    · rw [lookup_cons, if_pos rfl]
    · rw [lookup_cons, if_neg (by decide), lookup_cons, if_pos rfl]
  simp only [closure, List.map_cons, List.map_nil, hd, Option.bind_some, runAll_ret hval, Out.result, List.append_assoc]

/-- What is sent for a struct with one optional field that is set. -/
theorem enc_some_invoke {ρ : Runtime} {Leaf : Prim → Val → Prop} {tag : Nat → List UInt8} (hf : Faithful ρ Leaf tag)
    (ho : FieldOptions ρ tag) {k : Nat} {fs : Fields} {f : Field} {p : Prim} {v : Val} {bs : List UInt8} {t : Text} {g : Text → Val}
    {ss : List Stmt} (hp : ∀ w, lib ρ (n "Encode" ++ n (fnPrim p)) [] [] [.bytes w, v] = some [.bytes (w ++ bs)])
    (hk : fs.kind ≠ .unit) (hfs : fs.fields = [f]) (hty : f.ty = .option (.prim p)) (hv : g (fieldName f) = .ptr v)
    (h : encFieldsTree fs = some ss) (w : List UInt8) :
    invoke ρ k [(n "w", byteSlice)] (ss ++ [.ret [var "w"]]) (.obj t g) [.bytes w] =
      some ([.bytes (w ++ (tag f.id.toNat ++ (bs ++ tag 0)))], .obj t g) := by
  rw [encFieldsTree, if_neg hk, hfs] at h
  simp only [allOf, Option.bind_eq_bind, Option.bind_eq_some_iff, Option.pure_def, Option.some.injEq] at h
  obtain ⟨body, ⟨s, hs, b', hb', rfl⟩, rfl⟩ := h
  subst hb'
  have hΓ := encVars_start t g w
  have h1 := enc_some ho (k := k) hΓ hp hty hv hs
  have h2 := hΓ.set (w ++ (tag f.id.toNat ++ bs))
  have hk1 : keys (update [(n "w", .bytes w), (n "v", .obj t g)] (n "w") (.bytes (w ++ (tag f.id.toNat ++ bs)))) = [n "w"] ++ [n "v"] := by
    rw [keys_update]; rfl
  revert h1 h2 hk1
  generalize update [(n "w", .bytes w), (n "v", .obj t g)] (n "w") (.bytes (w ++ (tag f.id.toNat ++ bs))) = Γ1
  intro h1 h2 hk1
  have hr : run ρ k Γ1 (.assign (var "w") (.call (buf (n "EncodeU32")) [var "w", buf (n "EndMarker")])) =
      some (.next (update Γ1 (n "w") (.bytes (w ++ (tag f.id.toNat ++ bs) ++ tag 0)))) := by
    refine run_assign (Is.value ?_) (store_var h2.w)
    refine (value_call (eval_buf h2.buf _) (evalArgs_val (.var h2.w) (evalArgs_val (.const h2.buf hf.marker) (evalArgs_nil _ _)))).trans ?_
    exact hf.encodeMarker _
  have h3 := h2.set (w ++ (tag f.id.toNat ++ bs) ++ tag 0)
  have hb : runAll ρ k [(n "w", .bytes w), (n "v", .obj t g)] ([s] ++ [.assign (var "w") (.call (buf (n "EncodeU32"))
      [var "w", buf (n "EndMarker")])] ++ [.ret [var "w"]]) = some (.ret [.bytes (w ++ (tag f.id.toNat ++ bs) ++ tag 0)]
        (update Γ1 (n "w") (.bytes (w ++ (tag f.id.toNat ++ bs) ++ tag 0)))) := by
    rw [List.append_assoc, List.singleton_append, runAll_next h1, List.singleton_append, runAll_next hr]
    exact runAll_return (evalList_one (.var h3.w))
  have hd : define [(n "v", .obj t g)] [n "w"] [.bytes w] = some [(n "w", .bytes w), (n "v", .obj t g)] := rfl
  show (define [(n "v", .obj t g)] [n "w"] [.bytes w]).bind _ = _
  rw [hd, Option.bind_some, hb]
  have hl := lookup_leave (x := n "v") (K := [n "w"]) (Δ := update Γ1 (n "w") (.bytes (w ++ (tag f.id.toNat ++ bs) ++ tag 0)))
    (by rw [keys_update]; exact hk1) (by decide)
  show (lookup (leave 1 _) (n "v")).map _ = _
  rw [hl, h3.v]
  simp

/-- How a message of one field is read. -/
theorem dec_one_invoke {ρ : Runtime} {Leaf : Prim → Val → Prop} {tag : Nat → List UInt8} (hf : Faithful ρ Leaf tag)
    {fs : Fields} {f : Field} {u v : Val} {bs : List UInt8} {t : Text} {g : Text → Val} {body : List Stmt}
    (hfs : fs.fields = [f]) (h0 : f.id.toNat ≠ 0) (hc : TyCoded ρ (encTree · f.ty) (sizeTree · f.ty) (decTree f.ty) v u bs)
    (h : decBodyTree fs = some body) :
    ∃ g', Returns ρ [(n "r", byteSlice)] body (.obj t g) [.bytes (tag f.id.toNat ++ (bs ++ tag 0))] [.bytes [], .nil] (.obj t g') ∧
      g' (fieldName f) = u := by
  obtain ⟨cs, hcs, hb⟩ := dec_parts h
  have hΓ := start_vars fs.fields t g (tag f.id.toNat ++ (bs ++ tag 0))
  have hm : f ∈ fs.fields := by rw [hfs]; simp
  obtain ⟨Δ, hb1, hk1, hD⟩ := round_field hf (k := 3) hΓ hcs hm (by rw [hfs]; simp) (by rw [hfs]; simp) hc
  have hD0 := hD
  rw [show tag 0 = tag 0 ++ [] by simp] at hD0
  have hE := hD.set []
  have hloop : loopFrom ρ 3 cs 3 (startEnv fs.fields (.obj t g) (tag f.id.toNat ++ (bs ++ tag 0))) =
      some (.next (update Δ (n "r") (.bytes []))) := by
    rw [loop_round hΓ (by simp [hf.tagged]) hb1, loop_round hD (hf.tagged 0) (round_end hf hD0 hcs (by rw [hfs]; simpa using h0)),
      loop_done hE]
  refine ⟨fun y => if y = fieldName f then u else g y, ⟨3, ?_⟩, if_pos rfl⟩
  rw [invoke_dec_eq]
  refine ⟨update Δ (n "r") (.bytes []), ?_, ?_⟩
  · rw [invoke_start hb, hloop]
    show runAll ρ 3 (update Δ (n "r") (.bytes [])) (.blank :: _) = _
    have hck : runAll ρ 3 (update Δ (n "r") (.bytes [])) (fs.fields.map (foundCheckTree fs.kind)) =
        some (.next (update Δ (n "r") (.bytes []))) := by
      refine checks_found fs.fields fun f' hf' => ?_
      rw [hE.found f' hf']
      rw [hfs, List.mem_singleton] at hf'
      subst hf'; simp
    rw [runAll_next (run_blank _ _ _), runAll_append hck, runAll_next (run_blank _ _ _)]
    exact runAll_return (evalList_two (.var hE.r) (.nil (hE.none (by decide) (by decide) (by decide))))
  · have hkeys : keys (update Δ (n "r") (.bytes [])) = [foundName f, n "r"] ++ [n "v"] := by
      rw [keys_update, hk1, startEnv, hfs]; rfl
    rw [lookup_leave hkeys (by
      simp only [List.mem_cons, List.not_mem_nil, or_false, not_or]
      exact ⟨(found_ne f (by decide)).symm, by decide⟩)]
    exact hE.v

end Mabo.Go
