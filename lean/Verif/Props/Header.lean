import Verif.Proofs.Format

/-!
# C22, C24 and the header part of C23
-/

namespace Z5.Props
open Z5

/-- big-endian value of a byte string: most significant byte first -/
def bigEndian (b : Bytes) : Nat := b.foldl (fun acc x => acc * 256 + x.toNat) 0

private theorem bigEndian_append (a : Bytes) (x : Byte) :
    bigEndian (a ++ [x]) = bigEndian a * 256 + x.toNat := by
  simp [bigEndian]

private theorem bigEndian_beBytes (k n : Nat) : bigEndian (beBytes k n) = n % 256 ^ k := by
  have : ∀ b : Bytes, bigEndian b.reverse = leNat b := by
    intro b
    induction b with
    | nil => rfl
    | cons x b ih => rw [List.reverse_cons, bigEndian_append, ih, leNat]; omega
  rw [beBytes, reverseBytes_eq, this, leNat_leBytes]

/-- **C22 (layout).** The header is the N5 header: 2 bytes mode (0 or 1), 2 bytes number of axes, then
for each axis, *last axis first*, 4 bytes extent, then (only in mode 1) 4 bytes element count, all
big endian. -/
theorem c22_layout (shape : List Nat) (v : Bool) (n : Nat) (hd : shape.length < 2 ^ 16)
    (hs : ∀ s ∈ shape, s < 2 ^ 32) (hn : n < 2 ^ 32) :
    let h := writeN5Header shape v n
    h.length = 4 + 4 * shape.length + (if v then 4 else 0) ∧
    bigEndian (h.take 2) = (if v then 1 else 0) ∧
    bigEndian ((h.drop 2).take 2) = shape.length ∧
    (∀ d, (hd' : d < shape.length) →
      bigEndian ((h.drop (4 + 4 * d)).take 4) = shape[shape.length - 1 - d]) ∧
    (v = true → bigEndian ((h.drop (4 + 4 * shape.length)).take 4) = n) := by
  intro h
  have e : h = beBytes 2 (if v then 1 else 0) ++ (beBytes 2 shape.length ++
    (fields4 shape.reverse ++ (if v then beBytes 4 n else []))) := writeN5Header_eq ..
  have hl : h.length = _ := length_writeN5Header shape v n
  have f4 : ∀ (l : List Nat) (rest : Bytes) (d : Nat) (hd : d < l.length),
      ((fields4 l ++ rest).drop (4 * d)).take 4 = beBytes 4 l[d] := by
    intro l
    induction l with
    | nil => intro _ d hd; simp at hd
    | cons x l ih =>
      intro rest d hd
      rw [fields4_cons, List.append_assoc]
      cases d with
      | zero =>
        rw [Nat.mul_zero, List.drop_zero, List.take_append_of_le_length (by simp),
          List.take_of_length_le (by simp)]
        rfl
      | succ d =>
        rw [show 4 * (d + 1) = (beBytes 4 x).length + 4 * d by simp; omega, ← List.drop_drop,
          List.drop_left, ih rest d (by simpa using hd)]
        rfl
  have p4 : ∀ (a b X : Bytes) (m : Nat), a.length = 2 → b.length = 2 →
      (a ++ (b ++ X)).drop (4 + m) = X.drop m := by
    intro a b X m ha hb
    rw [show a ++ (b ++ X) = (a ++ b) ++ X by simp, show 4 + m = (a ++ b).length + m by simp [ha, hb],
      ← List.drop_drop, List.drop_left]
  refine ⟨by rw [hl]; omega, ?_, ?_, ?_, ?_⟩
  · rw [e, List.take_append_of_le_length (by simp), List.take_of_length_le (by simp),
      bigEndian_beBytes]
    cases v <;> rfl
  · rw [e, List.drop_append_of_le_length (by simp), List.drop_of_length_le (by simp), List.nil_append,
      List.take_append_of_le_length (by simp), List.take_of_length_le (by simp), bigEndian_beBytes]
    omega
  · intro d hd'
    rw [e, p4 _ _ _ _ (by simp) (by simp), f4 _ _ _ (by simpa using hd'), bigEndian_beBytes,
      List.getElem_reverse]
    exact Nat.mod_eq_of_lt (hs _ (List.getElem_mem _))
  · intro hv
    subst hv
    rw [e, p4 _ _ _ _ (by simp) (by simp), if_pos rfl,
      show 4 * shape.length = (fields4 shape.reverse).length by rw [length_fields4]; simp; omega,
      List.drop_left, List.take_of_length_le (by simp), bigEndian_beBytes]
    exact Nat.mod_eq_of_lt hn

/-- **C22.** Reading the header in front of any payload gives back the varlen flag, the number of
elements and the header length, when the values fit the header fields. -/
theorem c22_round_trip (shape : List Nat) (v : Bool) (n : Nat) (payload : Bytes)
    (hd : shape.length < 2 ^ 16) (hs : ∀ s ∈ shape, s < 2 ^ 32) (hp : prod shape < 2 ^ 64)
    (hn : n < 2 ^ 32) :
    readN5Header (writeN5Header shape v n ++ payload) =
      .ok (v, if v then n else prod shape, (writeN5Header shape v n).length) := by
  have hm : shape.map (· % 2 ^ 32) = shape := by
    conv => rhs; rw [← List.map_id shape]
    apply List.map_congr_left
    intro s h
    exact Nat.mod_eq_of_lt (hs s h)
  rw [readN5Header_write _ _ _ _ hd, hm, accumulateMul_eq hp, Nat.mod_eq_of_lt hn,
    length_writeN5Header]

/-- **C22.** The other header reader (`readVarlenFromHeader`) agrees. -/
theorem c22_varlen_reader (shape : List Nat) (v : Bool) (n : Nat) (payload : Bytes)
    (hd : shape.length < 2 ^ 16) (hn : n < 2 ^ 32) :
    readVarlenFromHeader (writeN5Header shape v n ++ payload) = .ok (if v then some n else none) :=
  readVarlenFromHeader_write shape v n payload hd hn

/-- **C22.** The shape reader gives back the shape, axis order included. -/
theorem c22_shape_reader (shape : List Nat) (v : Bool) (n : Nat) (payload : Bytes)
    (hd : shape.length < 2 ^ 16) (hs : ∀ s ∈ shape, s < 2 ^ 32) :
    readShapeFromHeader (writeN5Header shape v n ++ payload) = .ok shape :=
  readShapeFromHeader_write shape v n payload hd hs

/-- An extent of 2^32 + 3 is written as 3: the header silently truncates. -/
theorem c22_truncation_counterexample :
    readN5Header (writeN5Header [2 ^ 32 + 3] false 0) = .ok (false, 3, 8) ∧
    readShapeFromHeader (writeN5Header [2 ^ 32 + 3] false 0) = .ok [3] ∧
    readVarlenFromHeader (writeN5Header [1] true (2 ^ 32 + 3)) = .ok (some 3) := by
  decide +kernel

example : readN5Header (writeN5Header [3, 4, 5] false 0 ++ [7, 7]) = .ok (false, 60, 16) ∧
    readShapeFromHeader (writeN5Header [3, 4, 5] false 0) = .ok [3, 4, 5] := by decide +kernel

/-- **C23 (header).** Parsing the header of any byte string throws or yields a header length inside
the buffer; it never reads outside. -/
theorem c23_header_safe (b : Bytes) :
    readN5Header b = .throw .runtimeError ∨
    ∃ v n h, readN5Header b = .ok (v, n, h) ∧ h ≤ b.length :=
  readN5Header_safe b

/-- The two header readers disagree about the mode field: mode 2 is "varlen" for
`readVarlenFromHeader` and "not varlen" for `read_n5_header`. -/
theorem c23_mode_disagreement_counterexample :
    readN5Header [0, 2, 0, 1, 0, 0, 0, 3, 0, 0, 0, 2] = .ok (false, 3, 8) ∧
    readVarlenFromHeader [0, 2, 0, 1, 0, 0, 0, 3, 0, 0, 0, 2] = .ok (some 2) := by decide +kernel

/-- **C24.** Byte swapping the first `n` elements of a buffer keeps the number and order of the
elements, reverses the bytes of each of the first `n` and leaves the others alone. -/
theorem c24_swap (E : Elem) (n : Nat) (l : List E.T) (hn : n ≤ l.length) :
    ∃ l', revPrefix E n l = .ok l' ∧ l'.length = l.length ∧
      (∀ i x, i < n → l[i]? = some x → ∃ y, l'[i]? = some y ∧ E.toBytes y = (E.toBytes x).reverse) ∧
      (∀ i, n ≤ i → l'[i]? = l[i]?) := by
  refine ⟨_, by rw [revPrefix, if_neg (by omega)], ?_, ?_, ?_⟩
  · simp; omega
  · intro i x hi hx
    refine ⟨revElem E x, ?_, toBytes_revElem E x⟩
    rw [List.getElem?_append_left (by simp; omega)]
    simp [hi, hx]
  · intro i hi
    rw [List.getElem?_append_right (by simp; omega), List.getElem?_drop]
    congr 1
    simp; omega

/-- **C24.** Swapping twice is the identity. -/
theorem c24_involution (E : Elem) (n : Nat) (l l' : List E.T) (h : revPrefix E n l = .ok l') :
    revPrefix E n l' = .ok l := by
  unfold revPrefix at h
  split at h
  · simp at h
  · next hn =>
    cases h
    rw [revPrefix, if_neg (by simp; omega)]
    congr 1
    have h1 : ((l.take n).map (revElem E) ++ l.drop n).take n = (l.take n).map (revElem E) := by
      rw [List.take_append_of_le_length (by simp; omega), List.take_of_length_le (by simp; omega)]
    have h2 : ((l.take n).map (revElem E) ++ l.drop n).drop n = l.drop n := by
      have hl : ((l.take n).map (revElem E)).length = n := by simp; omega
      conv => lhs; arg 1; rw [← hl]
      rw [List.drop_left]
    rw [h1, h2, List.map_map]
    have : revElem E ∘ revElem E = id := by funext x; exact revElem_revElem E x
    rw [this, List.map_id, List.take_append_drop]

example : (do let l ← revPrefix (Elem.uint 2 (by decide)) 1 [⟨258, by decide⟩, ⟨258, by decide⟩]
              return encodeList _ l) = .ok [1, 2, 2, 1] := by decide +kernel

end Z5.Props
