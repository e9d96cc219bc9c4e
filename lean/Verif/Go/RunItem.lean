import Verif.Go.RunOption
import Verif.Go.Bridge
import Verif.Spec.GoItem
import Verif.Compiler.SimplifyLemmas
import Verif.Build.Lemmas
/-! The methods of the structs and variants of a schema. -/
namespace Mabo.Go
open Mabo.Spec Mabo.Simplify Mabo.Compiler Mabo.Spec.GoRun
open Mabo.Build (Each)
open Mabo.Schema (Prim)
open Mabo.Parse (Text)

theorem coded_of_dec : ∀ (t : Ty) (x : Expr), decTree t = some x → basicTy t = true → coded t = true
  | .prim _, _, _, _ => rfl
  | .vec t, x, h, hp => by
    simp only [decTree, decSingleTree, Option.bind_eq_bind, Option.bind_eq_some_iff] at h
    obtain ⟨g, _, d, hd, _⟩ := h
    exact coded_of_dec t d hd hp
  | .hashSet t, x, h, hp => by
    simp only [decTree, decSingleTree, Option.bind_eq_bind, Option.bind_eq_some_iff] at h
    obtain ⟨g, _, d, hd, _⟩ := h
    exact coded_of_dec t d hd hp
  | .option t, x, h, hp => by
    simp only [decTree, decSingleTree, Option.bind_eq_bind, Option.bind_eq_some_iff] at h
    obtain ⟨g, _, d, hd, _⟩ := h
    exact coded_of_dec t d hd hp
  | .array t size, x, h, hp => by
    simp only [decTree] at h
    split at h
    · rename_i ha
      simp only [decSingleTree, Option.bind_eq_bind, Option.bind_eq_some_iff] at h
      obtain ⟨g, _, d, hd, _⟩ := h
      simp only [coded, ha, Bool.true_and]
      exact coded_of_dec t d hd hp
    · cases h
  | .hashMap k v, x, h, hp => by
    simp only [decTree, decPairTree, Option.bind_eq_bind, Option.bind_eq_some_iff] at h
    obtain ⟨g, _, g', _, d, hd, d', hd', _⟩ := h
    simp only [basicTy, Bool.and_eq_true] at hp
    simp only [coded, Bool.and_eq_true]
    exact ⟨coded_of_dec k d hd hp.1, coded_of_dec v d' hd' hp.2⟩
  | .nonZero t, x, h, hp => by
    cases t with
    | prim p =>
      simp only [coded, Bool.and_true]
      simp only [decTree] at h
      split at h
      · assumption
      · cases h
    | vec t =>
      simp only [decTree, decSingleTree, Option.bind_eq_bind, Option.bind_eq_some_iff] at h
      obtain ⟨g, _, d, hd, _⟩ := h
      simp only [coded, nzArm, Bool.true_and]
      exact coded_of_dec t d hd hp
    | hashSet t =>
      simp only [decTree, decSingleTree, Option.bind_eq_bind, Option.bind_eq_some_iff] at h
      obtain ⟨g, _, d, hd, _⟩ := h
      simp only [coded, nzArm, Bool.true_and]
      exact coded_of_dec t d hd hp
    | hashMap k v =>
      simp only [decTree, decPairTree, Option.bind_eq_bind, Option.bind_eq_some_iff] at h
      obtain ⟨g, _, g', _, d, hd, d', hd', _⟩ := h
      simp only [basicTy, Bool.and_eq_true] at hp
      simp only [coded, nzArm, Bool.true_and, Bool.and_eq_true]
      exact ⟨coded_of_dec k d hd hp.1, coded_of_dec v d' hd' hp.2⟩
    | option _ => simp [decTree] at h
    | nonZero _ => simp [decTree] at h
    | tuple _ => cases hp
    | array _ _ => simp [decTree] at h
    | external _ _ _ => cases hp
  | .tuple _, _, _, hp | .external _ _ _, _, _, hp => by cases hp


/-- The methods of a struct or variant. -/
theorem item_methods {f : File} {name : String} {lines : List String} {es : List Definition} (hf : fileOf name lines es = some f)
    {ret : String} {x : Text} {gs : List Text} {fs : Fields} (hi : ItemOf es ret x gs fs) :
    ∃ enc size dec, encFieldsTree fs = some enc ∧ sizeFieldsTree fs = some size ∧ decBodyTree fs = some dec ∧
      HasMethod f x (n "Encode") (bytesParam "w") (enc ++ [.ret [var ret]]) ∧
      HasMethod f x (n "Size") [] (.define [n "size"] (.nat 0) :: size ++ [.ret [var "size"]]) ∧
      HasMethod f x (n "Decode") (bytesParam "r") dec := by
  simp only [fileOf, Option.bind_eq_bind, Option.bind_eq_some_iff, Option.pure_def, Option.some.injEq] at hf
  obtain ⟨decls, hd, rfl⟩ := hf
  have hp := item_parts hd hi
  obtain ⟨l1, h1, m1⟩ := hp.enc
  obtain ⟨l2, h2, m2⟩ := hp.dec
  obtain ⟨l3, h3, m3⟩ := hp.size
  simp only [encMethodTree, Option.bind_eq_bind, Option.bind_eq_some_iff, Option.pure_def, Option.some.injEq] at h1
  simp only [decMethodTree, Option.bind_eq_bind, Option.bind_eq_some_iff, Option.pure_def, Option.some.injEq] at h2
  simp only [sizeMethodTree, Option.bind_eq_bind, Option.bind_eq_some_iff, Option.pure_def, Option.some.injEq] at h3
  obtain ⟨enc, e1, rfl⟩ := h1
  obtain ⟨dec, e2, rfl⟩ := h2
  obtain ⟨size, e3, rfl⟩ := h3
  have third : ∀ (a b c : Decl), c ∈ [a, b, c] := by intro a b c; simp
  exact ⟨enc, size, dec, e1, e3, e2, ⟨gs, _, m1 _ (third _ _ _)⟩, ⟨gs, _, m3 _ (third _ _ _)⟩, ⟨gs, _, m2 _ (third _ _ _)⟩⟩

theorem struct_item {checked : Bool} {ds : List Ast.Definition} {es : List Definition} (h : Simplified checked ds es) {s : Ast.Struct}
    (hs : .struct s ∈ ds) {fs : Fields} (hfs : simplifyFields checked s.fields = some fs) :
    ItemOf es "w" (upperCamel s.name.toList) (s.generics.map String.toList) fs := by
  obtain ⟨e, he, hd⟩ := each_left h _ hs
  simp only [simplifyDefinition, hfs, Option.bind_eq_bind, Option.bind_some, Option.pure_def, Option.some.injEq] at hd
  subst hd
  exact .struct _ he

theorem variant_item {checked : Bool} {ds : List Ast.Definition} {es : List Definition} (h : Simplified checked ds es) {e : Ast.Enum}
    {v : Ast.Variant} (he : .enum e ∈ ds) (hv : v ∈ e.variants) {fs : Fields} (hfs : simplifyFields checked v.fields = some fs) :
    ∃ gs, ItemOf es "nil" (upperCamel e.name.toList ++ ['_'] ++ upperCamel v.name.toList) gs fs := by
  obtain ⟨e', hm, hd⟩ := each_left h _ he
  simp only [simplifyDefinition, Option.bind_eq_bind, Option.bind_eq_some_iff, Option.pure_def, Option.some.injEq] at hd
  obtain ⟨ws, hw, rfl⟩ := hd
  obtain ⟨w, hwm, hn, hf⟩ := (simplifyVariants_iff hw).1 v hv
  rw [hfs] at hf
  injection hf with hf
  have := ItemOf.variant (es := es) _ w hm hwm
  rw [hn, ← hf] at this
  exact ⟨_, this⟩

/-- The ids of the fields of a valid definition are different. -/
theorem ids_nodup {checked : Bool} {s : Ast.Schema} (h : validateSchema checked s = .ok) {d : Ast.Definition} (hd : Occurs s d)
    {afs : Ast.Fields} (hf : FieldsOf d afs) {fs : Fields} (hfs : simplifyFields checked afs = some fs) :
    (fs.fields.map fun f => f.id.toNat).Nodup := by
  have h1 := (localCheck_ok.1 ((validateSchema_ok.1 h).2 d hd)).ids _ (.fields hf)
  obtain ⟨gs, hgs, hsame⟩ := (simplifyFields_spec checked afs).1 h1.2
  rw [hfs] at hgs; injection hgs with hgs; subst hgs
  have h2 := h1.1 _ (Build.sameFields_ids hsame)
  have : (fs.fields.map fun f => f.id.toNat) = (fs.fields.map (·.id)).map BitVec.toNat := by simp
  rw [this]
  refine List.Pairwise.map _ ?_ h2
  intro a b hne he
  exact hne (BitVec.eq_of_toNat_eq he)

/-- The bytes of the fields. -/
theorem sent_of {ρ : Runtime} {Leaf : Prim → Val → Prop} {tag : Nat → List UInt8} (hf : Faithful ρ Leaf tag) {fs : Fields}
    {g : Text → Val} {dec : List Stmt} (hd : decBodyTree fs = some dec) (hp : PlainFields fs) (hs : Sendable Leaf fs g) :
    ∃ bs : Field → List UInt8, ∀ f ∈ fs.fields, Sent ρ g bs f := by
  classical
  let P : Field → List UInt8 → Prop := fun f b =>
    TyCoded ρ (encTree · f.ty) (sizeTree · f.ty) (decTree f.ty) (g (fieldName f)) (g (fieldName f)) b
  refine ⟨fun f => if h : ∃ b, P f b then h.choose else [], fun f hm => ⟨fun h => hs.nil f hm h, fun h => ?_⟩⟩
  have hex : ∃ b, P f b := by
    obtain ⟨cs, hcs, _⟩ := dec_parts hd
    obtain ⟨c, _, hc⟩ := (allOf_mem hcs).1 f hm
    simp only [decFieldTree, Option.bind_eq_bind, Option.bind_eq_some_iff] at hc
    obtain ⟨x, hx, _⟩ := hc
    exact codec hf f.ty (coded_of_dec _ _ hx (hp.types f hm)) _ (hs.fits f hm h)
  show P f (if h : ∃ b, P f b then h.choose else [])
  rw [dif_pos hex]
  exact hex.choose_spec

/-- Two structs with one field of a leaf type each. -/
theorem enc_same {ρ : Runtime} (hρ : FieldTyped ρ) {fs fs' : Fields} {d d' : Field} {p q : Prim} (hk : fs.kind ≠ .unit)
    (hk' : fs'.kind ≠ .unit) (hd : fs.fields = [d]) (hd' : fs'.fields = [d']) (hp : d.ty = .prim p) (hq : d'.ty = .prim q)
    (hid : d.id = d'.id) (hn : fieldName d = fieldName d') {enc enc' : List Stmt} (h : encFieldsTree fs = some enc)
    (h' : encFieldsTree fs' = some enc') {t : Text} {g : Text → Val}
    (hv : ∀ w, lib ρ (n "Encode" ++ n (fnPrim p)) [] [] [.bytes w, g (fieldName d)] =
      lib ρ (n "Encode" ++ n (fnPrim q)) [] [] [.bytes w, g (fieldName d)]) (k : Nat) (w : List UInt8) :
    invoke ρ k [(n "w", byteSlice)] (enc ++ [.ret [var "w"]]) (.obj t g) [.bytes w] =
      invoke ρ k [(n "w", byteSlice)] (enc' ++ [.ret [var "w"]]) (.obj t g) [.bytes w] := by
  rw [encFieldsTree, if_neg hk, hd] at h
  rw [encFieldsTree, if_neg hk', hd'] at h'
  simp only [allOf, encFieldTree, hp, hq, encTree, Option.bind_eq_bind, Option.bind_some, Option.pure_def, Option.some.injEq] at h h'
  subst h; subst h'
  have hΓ := encVars_start t g w
  have cl : ∀ (r : Prim) (b : List UInt8), closure ρ [(n "w", .bytes w), (n "v", .obj t g)] [(n "w", byteSlice)]
      (returns (.call (buf (n "Encode" ++ n (fnPrim r))) [var "w", .sel (var "v") (fieldName d)])) [.bytes b] =
      lib ρ (n "Encode" ++ n (fnPrim r)) [] [] [.bytes b, g (fieldName d)] := by
    intro r b
    have hd : define [(n "w", Val.bytes w), (n "v", .obj t g)] [n "w"] [.bytes b] =
        some [(n "w", .bytes b), (n "w", .bytes w), (n "v", .obj t g)] := rfl
    have hval : valueOf ρ [(n "w", .bytes b), (n "w", .bytes w), (n "v", .obj t g)]
        (.call (buf (n "Encode" ++ n (fnPrim r))) [var "w", .sel (var "v") (fieldName d)]) =
        lib ρ (n "Encode" ++ n (fnPrim r)) [] [] [.bytes b, g (fieldName d)] := by
      refine value_call (eval_buf ?_ _) (evalArgs_val (.var ?_) (evalArgs_val (Is.field (t := t) ?_) (evalArgs_nil _ _)))
      · rw [lookup_cons, if_neg (by decide), hΓ.buf]
      · rw [lookup_cons, if_pos rfl]
      · rw [lookup_cons, if_neg (by decide), hΓ.v]
    simp only [closure, List.map_cons, List.map_nil, hd, Option.bind_some]
    cases hc : lib ρ (n "Encode" ++ n (fnPrim r)) [] [] [.bytes b, g (fieldName d)] with
    | some vs => rw [hc] at hval; rw [runAll_ret hval]; rfl
    | none =>
      rw [hc] at hval
      simp only [returns, runAll, GoRun.run, evalList]
      have : (eval ρ [(n "w", .bytes b), (n "w", .bytes w), (n "v", .obj t g)]
        (.call (buf (n "Encode" ++ n (fnPrim r))) [var "w", .sel (var "v") (fieldName d)])).bind (·.values ρ) = none := hval
      rw [this]; rfl
  have key : ∀ r : Prim, eval ρ [(n "w", .bytes w), (n "v", .obj t g)] (.call (buf (n "EncodeField")) [var "w", .nat d.id.toNat,
      .func true [(n "w", byteSlice)] [byteSlice] (returns (.call (buf (n "Encode" ++ n (fnPrim r))) [var "w", .sel (var "v") (fieldName d)]))]) =
      (lib ρ (n "EncodeField") [] [closure ρ [(n "w", .bytes w), (n "v", .obj t g)] [(n "w", byteSlice)]
        (returns (.call (buf (n "Encode" ++ n (fnPrim r))) [var "w", .sel (var "v") (fieldName d)]))] [.bytes w, .num d.id.toNat]).map .vals := by
    intro r
    have ha : evalArgs ρ [(n "w", .bytes w), (n "v", .obj t g)] [var "w", .nat d.id.toNat, .func true [(n "w", byteSlice)] [byteSlice]
        (returns (.call (buf (n "Encode" ++ n (fnPrim r))) [var "w", .sel (var "v") (fieldName d)]))] = _ :=
      evalArgs_val (.var hΓ.w) (evalArgs_val (.nat _ _ _) (evalArgs_fn (evalArgs_nil _ _)))
    rw [eval_call, eval_buf hΓ.buf, ha]
    rfl
  have e : GoRun.run ρ k [(n "w", .bytes w), (n "v", .obj t g)] (.assign (var "w") (.call (buf (n "EncodeField")) [var "w", .nat d.id.toNat,
      .func true [(n "w", byteSlice)] [byteSlice] (returns (.call (buf (n "Encode" ++ n (fnPrim p))) [var "w", .sel (var "v") (fieldName d)]))])) =
      GoRun.run ρ k [(n "w", .bytes w), (n "v", .obj t g)] (.assign (var "w") (.call (buf (n "EncodeField")) [var "w", .nat d'.id.toNat,
      .func true [(n "w", byteSlice)] [byteSlice] (returns (.call (buf (n "Encode" ++ n (fnPrim q))) [var "w", .sel (var "v") (fieldName d')]))])) := by
    rw [← hid, ← hn]
    simp only [GoRun.run, key]
    rw [hρ _ _ w _ fun b => (cl p b).trans ((hv b).trans (cl q b).symm)]
  have hdef : define [(n "v", Val.obj t g)] [n "w"] [.bytes w] = some [(n "w", .bytes w), (n "v", .obj t g)] := rfl
  show (define [(n "v", Val.obj t g)] [n "w"] [.bytes w]).bind _ = (define [(n "v", Val.obj t g)] [n "w"] [.bytes w]).bind _
  rw [hdef]
  simp only [Option.bind_some, List.cons_append, List.nil_append, runAll, e]

end Mabo.Go
