import Verif.Go.RunAny
/-! A runtime library as the emitted Go code expects it. It is not the one of the project, which is not in the repository: numbers are
unary. It shows that what is assumed about runtime libraries can be met. -/
namespace Mabo.Go.Witness
open Mabo.Go Mabo.Simplify Mabo.Spec.GoRun
open Mabo.Schema (Prim)
open Mabo.Parse (Text printNat)

/-- A number. -/
def unary (i : Nat) : List UInt8 := List.replicate i 1 ++ [0]

/-- Reads a number. -/
def readUnary : List UInt8 → Option (Nat × List UInt8)
  | [] => none
  | b :: bs => if b = 0 then some (0, bs) else (readUnary bs).map fun p => (p.1 + 1, p.2)

theorem read_unary (i : Nat) (rest : List UInt8) : readUnary (unary i ++ rest) = some (i, rest) := by
  induction i with
  | zero => simp [unary, readUnary]
  | succ i ih =>
    rw [unary, List.replicate_succ, List.cons_append, List.cons_append, readUnary, if_neg (by decide)]
    rw [unary] at ih
    rw [ih]; rfl

/-- How values of a leaf type look. -/
inductive Form where
  | bool | byte | num | text | bytes

/-- The name of the type as it is part of the names of functions. -/
def formOf (x : Text) : Form :=
  if x = n "Bool" then .bool else if x = n "U8" then .byte else if x = n "String" then .text
  else if x = n "Bytes" then .bytes else .num

/-- Reads several. -/
def readMany : Nat → List UInt8 → Option (Text × List UInt8)
  | 0, r => some ([], r)
  | k + 1, r => (readUnary r).bind fun p => (readMany k p.2).map fun q => (Char.ofNat p.1 :: q.1, q.2)

theorem read_many (s : Text) (rest : List UInt8) : readMany s.length (s.flatMap (fun c => unary c.toNat) ++ rest) = some (s, rest) := by
  induction s with
  | nil => rfl
  | cons c s ih =>
    rw [List.flatMap_cons, List.append_assoc, List.length_cons, readMany, read_unary, Option.bind_some, ih]
    simp

/-- Writes a value of a leaf type. -/
def encLeaf : Form → Val → Option (List UInt8)
  | .bool, .bool b => some [if b then 1 else 0]
  | .byte, .num i => if 0 ≤ i ∧ i < 256 then some [UInt8.ofNat i.toNat] else none
  | .num, .num i => if 0 ≤ i then some (unary i.toNat) else none
  | .text, .text s => some (unary s.length ++ s.flatMap fun c => unary c.toNat)
  | .bytes, .bytes bs => some (unary bs.length ++ bs)
  | _, _ => none

/-- Reads a value of a leaf type. -/
def decLeaf : Form → List UInt8 → Option (Val × List UInt8)
  | .bool, b :: bs => some (.bool (b == 1), bs)
  | .byte, b :: bs => some (.num b.toNat, bs)
  | .num, r => (readUnary r).map fun p => (.num p.1, p.2)
  | .text, r => (readUnary r).bind fun p => (readMany p.1 p.2).map fun q => (.text q.1, q.2)
  | .bytes, r => (readUnary r).map fun p => (.bytes (p.2.take p.1), p.2.drop p.1)
  | _, _ => none

theorem leaf_round {x : Form} {v : Val} {bs : List UInt8} (h : encLeaf x v = some bs) (rest : List UInt8) :
    decLeaf x (bs ++ rest) = some (v, rest) := by
  unfold encLeaf at h
  split at h
  · injection h with h; subst h
    rename_i b
    cases b <;> rfl
  · split at h
    · rename_i i hi
      injection h with h; subst h
      simp only [List.singleton_append, decLeaf]
      have : ((UInt8.ofNat i.toNat).toNat : Int) = i := by
        have h1 : (UInt8.ofNat i.toNat).toNat = i.toNat := by
          rw [UInt8.toNat_ofNat']; omega
        rw [h1]; omega
      rw [this]
    · cases h
  · split at h
    · rename_i i hi
      injection h with h; subst h
      rw [decLeaf, read_unary]
      simp only [Option.map_some, Option.some.injEq, Prod.mk.injEq, Val.num.injEq, and_true]
      omega
    · cases h
  · injection h with h; subst h
    rw [decLeaf, List.append_assoc, read_unary, Option.bind_some, read_many]; rfl
  · injection h with h; subst h
    rw [decLeaf, List.append_assoc, read_unary]; simp
  · cases h

/-- Writes all elements. -/
def encAll (f : List Val → Option (List Val)) (w : List UInt8) : List Val → Option (List UInt8)
  | [] => some w
  | x :: xs =>
    match f [.bytes w, x] with
    | some [.bytes w'] => encAll f w' xs
    | _ => none

/-- Their sizes. -/
def sizeAll (f : List Val → Option (List Val)) : List Val → Option Int
  | [] => some 0
  | x :: xs =>
    match f [x] with
    | some [.num s] => (sizeAll f xs).map (s + ·)
    | _ => none

/-- Reads the elements. -/
def decAll (f : List Val → Option (List Val)) : Nat → List UInt8 → Option (List Val × List UInt8)
  | 0, r => some ([], r)
  | k + 1, r =>
    match f [.bytes r] with
    | some [.bytes r', v, .nil] => (decAll f k r').map fun q => (v :: q.1, q.2)
    | _ => none

theorem all_round {enc size dec : List Val → Option (List Val)} {P : Val → Prop} (h : Codec enc size dec P) : ∀ xs : List Val,
    (∀ x ∈ xs, P x) → ∃ bs : List UInt8, (∀ w, encAll enc w xs = some (w ++ bs)) ∧ sizeAll size xs = some (bs.length : Int) ∧
      ∀ rest, decAll dec xs.length (bs ++ rest) = some (xs, rest) := by
  intro xs
  induction xs with
  | nil => intro _; exact ⟨[], fun w => by simp [encAll], rfl, fun rest => rfl⟩
  | cons x xs ih =>
    intro hx
    obtain ⟨b, hb⟩ := h x (hx x (by simp))
    obtain ⟨bs, h1, h2, h3⟩ := ih fun x hm => hx x (by simp [hm])
    refine ⟨b ++ bs, fun w => ?_, ?_, fun rest => ?_⟩
    · simp only [encAll, hb.enc, h1, List.append_assoc]
    · simp only [sizeAll, hb.size, h2, Option.map_some, List.length_append]
      congr 1
    · simp only [List.length_cons, decAll, List.append_assoc, hb.dec, h3, Option.map_some]

/-- Writes all entries of a map. -/
def encPairs (f g : List Val → Option (List Val)) (w : List UInt8) : List (Val × Val) → Option (List UInt8)
  | [] => some w
  | x :: xs =>
    match f [.bytes w, x.1] with
    | some [.bytes w'] =>
      match g [.bytes w', x.2] with
      | some [.bytes w''] => encPairs f g w'' xs
      | _ => none
    | _ => none

/-- Their sizes. -/
def sizePairs (f g : List Val → Option (List Val)) : List (Val × Val) → Option Int
  | [] => some 0
  | x :: xs =>
    match f [x.1], g [x.2] with
    | some [.num s], some [.num t] => (sizePairs f g xs).map (s + t + ·)
    | _, _ => none

/-- Reads the entries. -/
def decPairs (f g : List Val → Option (List Val)) : Nat → List UInt8 → Option (List (Val × Val) × List UInt8)
  | 0, r => some ([], r)
  | k + 1, r =>
    match f [.bytes r] with
    | some [.bytes r', u, .nil] =>
      match g [.bytes r'] with
      | some [.bytes r'', v, .nil] => (decPairs f g k r'').map fun q => ((u, v) :: q.1, q.2)
      | _ => none
    | _ => none

theorem pairs_round {enc size dec enc' size' dec' : List Val → Option (List Val)} {P Q : Val → Prop} (h : Codec enc size dec P)
    (h' : Codec enc' size' dec' Q) : ∀ xs : List (Val × Val), (∀ x ∈ xs, P x.1 ∧ Q x.2) → ∃ bs : List UInt8,
      (∀ w, encPairs enc enc' w xs = some (w ++ bs)) ∧ sizePairs size size' xs = some (bs.length : Int) ∧
      ∀ rest, decPairs dec dec' xs.length (bs ++ rest) = some (xs, rest) := by
  intro xs
  induction xs with
  | nil => intro _; exact ⟨[], fun w => by simp [encPairs], rfl, fun rest => rfl⟩
  | cons x xs ih =>
    intro hx
    obtain ⟨b, hb⟩ := h x.1 (hx x (by simp)).1
    obtain ⟨c, hc⟩ := h' x.2 (hx x (by simp)).2
    obtain ⟨bs, h1, h2, h3⟩ := ih fun x hm => hx x (by simp [hm])
    refine ⟨b ++ c ++ bs, fun w => ?_, ?_, fun rest => ?_⟩
    · simp only [encPairs, hb.enc, hc.enc, h1, List.append_assoc]
    · simp only [sizePairs, hb.size, hc.size, h2, Option.map_some, List.length_append]
      congr 1
    · simp only [List.length_cons, decPairs, List.append_assoc, hb.dec, hc.dec, h3, Option.map_some]

/-- The functions `Encode..`. -/
def encFn (x : Text) : List Arg → Option (List Val)
  | [.val (.bytes w), .val v] => (encLeaf (formOf x) v).map fun bs => [.bytes (w ++ bs)]
  | [.val (.bytes w), .val (.seq xs), .fn f] => (encAll f (w ++ unary xs.length) xs).map fun bs => [.bytes bs]
  | [.val (.bytes w), .val (.map xs), .fn f] => (encAll f (w ++ unary xs.length) (xs.map (·.1))).map fun bs => [.bytes bs]
  | [.val (.bytes w), .val (.map xs), .fn f, .fn g] => (encPairs f g (w ++ unary xs.length) xs).map fun bs => [.bytes bs]
  | [.val (.bytes w), .val .nil, .fn _] => some [.bytes (w ++ [0])]
  | [.val (.bytes w), .val (.ptr v), .fn f] => f [.bytes (w ++ [1]), v]
  | [.val (.bytes w), .val (.num i), .fn f] => f [.bytes (w ++ unary i.toNat)]
  | [.val (.bytes w), .val (.num _), .val (.ptr .nil), .fn _] => some [.bytes w]
  | [.val (.bytes w), .val (.num i), .val (.ptr (.ptr v)), .fn f] => f [.bytes (w ++ unary i.toNat), v]
  | _ => none

/-- Adds to a size. -/
def more (k : Nat) : Option (List Val) → Option (List Val)
  | some [.num s] => some [.num (k + s)]
  | _ => none

/-- The functions `Size..`. -/
def sizeFn (x : Text) : List Arg → Option (List Val)
  | [.val v] => (encLeaf (formOf x) v).map fun bs => [.num bs.length]
  | [.val (.seq xs), .fn f] => (sizeAll f xs).map fun s => [.num ((unary xs.length).length + s)]
  | [.val (.map xs), .fn f] => (sizeAll f (xs.map (·.1))).map fun s => [.num ((unary xs.length).length + s)]
  | [.val (.map xs), .fn f, .fn g] => (sizePairs f g xs).map fun s => [.num ((unary xs.length).length + s)]
  | [.val .nil, .fn _] => some [.num 1]
  | [.val (.ptr v), .fn f] => more 1 (f [v])
  | [.val (.num i), .fn f] => more (unary i.toNat).length (f [])
  | [.val (.num _), .val (.ptr .nil), .fn _] => some [.num 0]
  | [.val (.num i), .val (.ptr (.ptr v)), .fn f] => more (unary i.toNat).length (f [v])
  | _ => none

/-- The functions `Decode..`. -/
def decFn (x : Text) : List Arg → Option (Val × List UInt8)
  | [.val (.bytes r)] => if x = n "ID" then (readUnary r).map fun p => (.num p.1, p.2) else decLeaf (formOf x) r
  | [.val (.bytes r), .fn f] =>
    if x = n "HashSet" then
      (readUnary r).bind fun p => (decAll f p.1 p.2).map fun q => (.map (q.1.map fun v => (v, .unit)), q.2)
    else if x = n "Option" then
      match r with
      | [] => none
      | b :: r' => if b = 0 then some (.nil, r') else
        match f [.bytes r'] with
        | some [.bytes r'', v, .nil] => some (.ptr v, r'')
        | _ => none
    else (readUnary r).bind fun p => (decAll f p.1 p.2).map fun q => (.seq q.1, q.2)
  | [.val (.bytes r), .fn f, .fn g] => (readUnary r).bind fun p => (decPairs f g p.1 p.2).map fun q => (.map q.1, q.2)
  | _ => none

/-- A runtime library. -/
def runtime : Runtime where
  const x := if x = n "EndMarker" then some (.num 0) else if x = n "EndMarkerSize" then some (.num 1) else none
  call x _ as :=
    if x.take 6 = n "Encode" then encFn (x.drop 6) as
    else if x.take 4 = n "Size" then sizeFn (x.drop 4) as
    else if x.take 13 = n "DecodeNonZero" then (decFn (x.drop 13) as).map fun p => [.bytes p.2, .nonZero p.1, .nil]
    else (decFn (x.drop 6) as).map fun p => [.bytes p.2, p.1, .nil]
  method x v _ :=
    match v with
    | .nonZero u => if x = n "Get" then some [u] else none
    | _ => none
  zero _ := .nil

/-- The values of leaf types that it can write. -/
def Leaf (p : Prim) (v : Val) : Prop := (encLeaf (formOf (n (fnPrim p))) v).isSome

theorem call_enc (x : Text) (ts : List GTy) (as : List Arg) : runtime.call (n "Encode" ++ x) ts as = encFn x as := rfl

theorem call_size (x : Text) (ts : List GTy) (as : List Arg) : runtime.call (n "Size" ++ x) ts as = sizeFn x as := rfl

theorem call_nz (x : Text) (ts : List GTy) (as : List Arg) :
    runtime.call (n "DecodeNonZero" ++ x) ts as = (decFn x as).map fun p => [.bytes p.2, .nonZero p.1, .nil] := rfl

theorem call_dec (x : Text) (ts : List GTy) (as : List Arg) (h : x.take 7 ≠ n "NonZero") :
    runtime.call (n "Decode" ++ x) ts as = (decFn x as).map fun p => [.bytes p.2, p.1, .nil] := by
  have h1 : (n "Decode" ++ x).take 13 ≠ n "DecodeNonZero" := by
    intro e
    refine h ?_
    have := congrArg (List.drop 6) e
    exact this
  have h2 : (n "Decode" ++ x).take 6 ≠ n "Encode" := fun e =>
    absurd (show some 'D' = some 'E' from congrArg List.head? e) (by decide)
  have h3 : (n "Decode" ++ x).take 4 ≠ n "Size" := fun e =>
    absurd (show some 'D' = some 'S' from congrArg List.head? e) (by decide)
  simp only [runtime, if_neg h1, if_neg h2, if_neg h3]
  rfl

/-- A codec from the three functions. -/
theorem coded_of {x : Text} {ts : List GTy} {fe fs fd : List (List Val → Option (List Val))} {v : Val} {bs : List UInt8}
    (h1 : ∀ w, encFn x ([.val (.bytes w), .val v] ++ fe.map .fn) = some [.bytes (w ++ bs)])
    (h2 : sizeFn x ([.val v] ++ fs.map .fn) = some [.num bs.length])
    (h3 : ∀ rest, decFn x ([.val (.bytes (bs ++ rest))] ++ fd.map .fn) = some (v, rest)) :
    (x.take 7 ≠ n "NonZero" → Coded (lib runtime (n "Encode" ++ x) ts fe) (lib runtime (n "Size" ++ x) ts fs)
        (lib runtime (n "Decode" ++ x) ts fd) v v bs) ∧
      Coded (lib runtime (n "Encode" ++ x) ts fe) (lib runtime (n "Size" ++ x) ts fs)
        (lib runtime (n "DecodeNonZero" ++ x) ts fd) v (.nonZero v) bs := by
  refine ⟨fun hx => ⟨fun w => ?_, ?_, fun rest => ?_⟩, ⟨fun w => ?_, ?_, fun rest => ?_⟩⟩
  · rw [lib, call_enc]; exact h1 w
  · rw [lib, call_size]; exact h2
  · rw [lib, call_dec _ _ _ hx]
    have := h3 rest
    rw [show List.map Arg.val [.bytes (bs ++ rest)] = [.val (.bytes (bs ++ rest))] from rfl, this]; rfl
  · rw [lib, call_enc]; exact h1 w
  · rw [lib, call_size]; exact h2
  · rw [lib, call_nz]
    have := h3 rest
    rw [show List.map Arg.val [.bytes (bs ++ rest)] = [.val (.bytes (bs ++ rest))] from rfl, this]; rfl

theorem prim_coded (p : Prim) (v : Val) (h : Leaf p v) : ∃ bs,
    Coded (lib runtime (n "Encode" ++ n (fnPrim p)) [] []) (lib runtime (n "Size" ++ n (fnPrim p)) [] [])
      (lib runtime (n "Decode" ++ n (fnPrim p)) [] []) v v bs ∧
    Coded (lib runtime (n "Encode" ++ n (fnPrim p)) [] []) (lib runtime (n "Size" ++ n (fnPrim p)) [] [])
      (lib runtime (n "DecodeNonZero" ++ n (fnPrim p)) [] []) v (.nonZero v) bs := by
  obtain ⟨bs, hb⟩ := Option.isSome_iff_exists.1 h
  have := coded_of (x := n (fnPrim p)) (ts := []) (fe := []) (fs := []) (fd := []) (v := v) (bs := bs)
    (fun w => by show (encLeaf _ _).map _ = _; rw [hb]; rfl) (by show (encLeaf _ _).map _ = _; rw [hb]; rfl)
    (fun rest => by
      show (if n (fnPrim p) = n "ID" then _ else decLeaf _ _) = _
      rw [if_neg (by cases p <;> decide), leaf_round hb])
  exact ⟨bs, this.1 (by cases p <;> decide), this.2⟩

theorem seq_coded {x : Text} (hx : x ≠ n "HashSet" ∧ x ≠ n "Option") (g : GTy) {enc size dec : List Val → Option (List Val)} {P : Val → Prop}
    (h : Codec enc size dec P) (v : Val) (hv : ListOf P v) : ∃ bs,
    (x.take 7 ≠ n "NonZero" → Coded (lib runtime (n "Encode" ++ x) [g] [enc]) (lib runtime (n "Size" ++ x) [g] [size])
      (lib runtime (n "Decode" ++ x) [g] [dec]) v v bs) ∧
    Coded (lib runtime (n "Encode" ++ x) [g] [enc]) (lib runtime (n "Size" ++ x) [g] [size])
      (lib runtime (n "DecodeNonZero" ++ x) [g] [dec]) v (.nonZero v) bs := by
  obtain ⟨xs, rfl, hxs⟩ := hv
  obtain ⟨bs, h1, h2, h3⟩ := all_round h xs hxs
  refine ⟨unary xs.length ++ bs, coded_of (fun w => ?_) ?_ fun rest => ?_⟩
  · show (encAll enc (w ++ unary xs.length) xs).map _ = _
    rw [h1, List.append_assoc]; rfl
  · show (sizeAll size xs).map _ = _
    rw [h2]; simp
  · show (if x = n "HashSet" then _ else if x = n "Option" then _ else
      (readUnary (unary xs.length ++ bs ++ rest)).bind fun p => (decAll dec p.1 p.2).map fun q => (Val.seq q.1, q.2)) = _
    rw [if_neg hx.1, if_neg hx.2, List.append_assoc, read_unary, Option.bind_some, h3]; rfl

theorem set_coded (g : GTy) {enc size dec : List Val → Option (List Val)} {P : Val → Prop}
    (h : Codec enc size dec P) (v : Val) (hv : SetOf P v) : ∃ bs,
    Coded (lib runtime (n "Encode" ++ n "HashSet") [g] [enc]) (lib runtime (n "Size" ++ n "HashSet") [g] [size])
      (lib runtime (n "Decode" ++ n "HashSet") [g] [dec]) v v bs ∧
    Coded (lib runtime (n "Encode" ++ n "HashSet") [g] [enc]) (lib runtime (n "Size" ++ n "HashSet") [g] [size])
      (lib runtime (n "DecodeNonZero" ++ n "HashSet") [g] [dec]) v (.nonZero v) bs := by
  obtain ⟨xs, rfl, _, hxs⟩ := hv
  obtain ⟨bs, h1, h2, h3⟩ := all_round h (xs.map (·.1)) (by
    intro x hx; obtain ⟨y, hy, rfl⟩ := List.mem_map.1 hx; exact (hxs y hy).1)
  have hun : (xs.map (·.1)).map (fun v => (v, Val.unit)) = xs := by
    rw [List.map_map]
    conv => rhs; rw [← List.map_id xs]
    refine List.map_congr_left fun y hy => ?_
    have := (hxs y hy).2
    obtain ⟨a, b⟩ := y
    simp only at this; subst this; rfl
  have := coded_of (x := n "HashSet") (ts := [g]) (fe := [enc]) (fs := [size]) (fd := [dec]) (v := .map xs) (bs := unary xs.length ++ bs)
    (fun w => by
      show (encAll enc (w ++ unary xs.length) (xs.map (·.1))).map _ = _
      rw [h1, List.append_assoc]; rfl)
    (by
      show (sizeAll size (xs.map (·.1))).map _ = _
      rw [h2]; simp)
    (fun rest => by
      show ((readUnary (unary xs.length ++ bs ++ rest)).bind fun p => (decAll dec p.1 p.2).map fun q =>
        (Val.map (q.1.map fun v => (v, Val.unit)), q.2)) = _
      rw [List.length_map] at h3
      rw [List.append_assoc, read_unary, Option.bind_some, h3, Option.map_some, hun])
  exact ⟨_, this.1 (by decide), this.2⟩

theorem map_coded (g g' : GTy) {enc size dec enc' size' dec' : List Val → Option (List Val)} {P P' : Val → Prop}
    (h : Codec enc size dec P) (h' : Codec enc' size' dec' P') (v : Val) (hv : MapOf P P' v) : ∃ bs,
    Coded (lib runtime (n "Encode" ++ n "HashMap") [g, g'] [enc, enc']) (lib runtime (n "Size" ++ n "HashMap") [g, g'] [size, size'])
      (lib runtime (n "Decode" ++ n "HashMap") [g, g'] [dec, dec']) v v bs ∧
    Coded (lib runtime (n "Encode" ++ n "HashMap") [g, g'] [enc, enc']) (lib runtime (n "Size" ++ n "HashMap") [g, g'] [size, size'])
      (lib runtime (n "DecodeNonZero" ++ n "HashMap") [g, g'] [dec, dec']) v (.nonZero v) bs := by
  obtain ⟨xs, rfl, _, hxs⟩ := hv
  obtain ⟨bs, h1, h2, h3⟩ := pairs_round h h' xs hxs
  have := coded_of (x := n "HashMap") (ts := [g, g']) (fe := [enc, enc']) (fs := [size, size']) (fd := [dec, dec']) (v := .map xs)
    (bs := unary xs.length ++ bs)
    (fun w => by
      show (encPairs enc enc' (w ++ unary xs.length) xs).map _ = _
      rw [h1, List.append_assoc]; rfl)
    (by
      show (sizePairs size size' xs).map _ = _
      rw [h2]; simp)
    (fun rest => by
      show ((readUnary (unary xs.length ++ bs ++ rest)).bind fun p => (decPairs dec dec' p.1 p.2).map fun q =>
        (Val.map q.1, q.2)) = _
      rw [List.append_assoc, read_unary, Option.bind_some, h3, Option.map_some])
  exact ⟨_, this.1 (by decide), this.2⟩

theorem option_coded (g : GTy) {enc size dec : List Val → Option (List Val)} {P : Val → Prop}
    (h : Codec enc size dec P) (v : Val) (hv : OptionOf P v) : ∃ bs,
    Coded (lib runtime (n "Encode" ++ n "Option") [g] [enc]) (lib runtime (n "Size" ++ n "Option") [g] [size])
      (lib runtime (n "Decode" ++ n "Option") [g] [dec]) v v bs := by
  rcases hv with rfl | ⟨x, rfl, hx⟩
  · exact ⟨[0], (coded_of (x := n "Option") (ts := [g]) (fe := [enc]) (fs := [size]) (fd := [dec]) (v := .nil) (bs := [0])
      (fun w => rfl) rfl (fun rest => rfl)).1 (by decide)⟩
  · obtain ⟨bs, hb⟩ := h x hx
    refine ⟨1 :: bs, (coded_of (x := n "Option") (ts := [g]) (fe := [enc]) (fs := [size]) (fd := [dec]) (v := .ptr x) (bs := 1 :: bs)
      (fun w => ?_) ?_ fun rest => ?_).1 (by decide)⟩
    · show enc [.bytes (w ++ [1]), x] = _
      rw [hb.enc]; simp
    · show more 1 (size [x]) = _
      rw [hb.size]
      simp only [more, List.length_cons, Option.some.injEq, List.cons.injEq, Val.num.injEq, and_true]
      omega
    · show (match dec [.bytes (bs ++ rest)] with
        | some [.bytes r'', v, .nil] => some (Val.ptr v, r'')
        | _ => none) = _
      rw [hb.dec]

/-- It does what is expected. -/
theorem faithful : Faithful runtime Leaf unary where
  prim p v hv := let ⟨bs, h, _⟩ := prim_coded p v hv; ⟨bs, h⟩
  vec g _ _ _ _ h v hv := let ⟨bs, h, _⟩ := seq_coded (x := n "Vec") (by decide) g h v hv; ⟨bs, h (by decide)⟩
  map g g' _ _ _ _ _ _ _ _ h h' v hv := let ⟨bs, h, _⟩ := map_coded g g' h h' v hv; ⟨bs, h⟩
  set g _ _ _ _ h v hv := let ⟨bs, h, _⟩ := set_coded g h v hv; ⟨bs, h⟩
  option g _ _ _ _ h v hv := option_coded g h v hv
  array g size _ _ _ _ h v hv := by
    obtain ⟨xs, rfl, _, hxs⟩ := hv
    have hne : n "Array" ++ printNat size ≠ n "HashSet" ∧ n "Array" ++ printNat size ≠ n "Option" :=
      ⟨fun e => absurd (show some 'A' = some 'H' from congrArg List.head? e) (by decide),
        fun e => absurd (show some 'A' = some 'O' from congrArg List.head? e) (by decide)⟩
    obtain ⟨bs, h, _⟩ := seq_coded (x := n "Array" ++ printNat size) hne g h (.seq xs) ⟨xs, rfl, hxs⟩
    exact ⟨bs, h fun e => absurd (congrArg List.head? e) (by
      rw [show (List.take 7 (n "Array" ++ printNat size)).head? = some 'A' from rfl]; decide)⟩
  nzPrim p _ v hv _ := let ⟨bs, _, h⟩ := prim_coded p v hv; ⟨bs, h⟩
  nzVec g _ _ _ _ h v hv _ := let ⟨bs, _, h⟩ := seq_coded (x := n "Vec") (by decide) g h v hv; ⟨bs, h⟩
  nzMap g g' _ _ _ _ _ _ _ _ h h' v hv _ := let ⟨bs, _, h⟩ := map_coded g g' h h' v hv; ⟨bs, h⟩
  nzSet g _ _ _ _ h v hv _ := let ⟨bs, _, h⟩ := set_coded g h v hv; ⟨bs, h⟩
  get v := rfl
  tagged id h := by simp [unary] at h
  decodeId id rest := by
    show ((readUnary (unary id ++ rest)).map fun p => (Val.num p.1, p.2)).map _ = _
    rw [read_unary]; rfl
  field id f w out h := h
  sizeField id f s h := by
    show more (unary id).length (f []) = _
    rw [h]; simp [more]
  marker := rfl
  encodeMarker w := rfl
  markerSize := rfl

theorem fieldOptions : FieldOptions runtime unary where
  none g id f w := rfl
  some g id f w v := rfl
  sizeNone g id f := rfl
  sizeSome g id f v s h := by
    show more (unary id).length (f [v]) = _
    rw [h]; simp [more]

end Mabo.Go.Witness
