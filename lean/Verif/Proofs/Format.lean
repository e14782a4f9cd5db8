import Verif.Model.Format
import Verif.Proofs.Blocking

/-!
# Lemmas about buffers, byte order and the N5 header
-/

namespace Z5

theorem reverseBytes_eq (b : Bytes) : reverseBytes b = b.reverse := by
  apply List.ext_getElem
  · simp [reverseBytes]
  · intro i h1 h2
    simp only [reverseBytes, List.length_map, List.length_range] at h1
    simp only [reverseBytes, List.getElem_map, List.getElem_range, List.getElem_reverse]
    rw [List.getD_eq_getElem?_getD, List.getElem?_eq_getElem (by omega), Option.getD_some]

theorem length_reverseBytes (b : Bytes) : (reverseBytes b).length = b.length := by
  rw [reverseBytes_eq, List.length_reverse]

theorem toBytes_revElem (E : Elem) (x : E.T) : E.toBytes (revElem E x) = (E.toBytes x).reverse := by
  unfold revElem
  rw [E.toBytes_ofBytes _ (by rw [length_reverseBytes, E.length_toBytes]), reverseBytes_eq]

theorem toBytes_inj (E : Elem) {x y : E.T} (h : E.toBytes x = E.toBytes y) : x = y := by
  rw [← E.ofBytes_toBytes x, h, E.ofBytes_toBytes]

theorem revElem_revElem (E : Elem) (x : E.T) : revElem E (revElem E x) = x := by
  apply toBytes_inj
  rw [toBytes_revElem, toBytes_revElem, List.reverse_reverse]

/-! ### Buffers of elements -/

theorem length_encodeList (E : Elem) : ∀ l : List E.T, (encodeList E l).length = l.length * E.size
  | [] => by simp [encodeList]
  | x :: l => by
    have := length_encodeList E l
    unfold encodeList at *
    rw [List.flatMap_cons, List.length_append, E.length_toBytes, this, List.length_cons, Nat.succ_mul]
    omega

theorem encodeList_cons (E : Elem) (x : E.T) (l : List E.T) :
    encodeList E (x :: l) = E.toBytes x ++ encodeList E l := List.flatMap_cons ..

theorem encodeList_append (E : Elem) (l m : List E.T) :
    encodeList E (l ++ m) = encodeList E l ++ encodeList E m := List.flatMap_append ..

@[simp] theorem length_decodeList (E : Elem) : ∀ n b, (decodeList E n b).length = n
  | 0, _ => rfl
  | n + 1, b => by rw [decodeList, List.length_cons, length_decodeList E n]

theorem decodeList_encodeList (E : Elem) : ∀ (l : List E.T) (rest : Bytes),
    decodeList E l.length (encodeList E l ++ rest) = l
  | [], _ => rfl
  | x :: l, rest => by
    have hl := E.length_toBytes x
    rw [List.length_cons, decodeList, encodeList_cons, List.append_assoc,
      List.take_append_of_le_length (by omega), List.drop_append_of_le_length (by omega),
      List.take_of_length_le (by omega), List.drop_of_length_le (by omega), List.nil_append,
      E.ofBytes_toBytes, decodeList_encodeList E l]

theorem encodeList_decodeList (E : Elem) : ∀ (n : Nat) (b : Bytes), n * E.size ≤ b.length →
    encodeList E (decodeList E n b) = b.take (n * E.size)
  | 0, b, _ => by simp [decodeList, encodeList]
  | n + 1, b, h => by
    rw [Nat.succ_mul] at h
    rw [decodeList, encodeList_cons, E.toBytes_ofBytes _ (by rw [List.length_take]; omega),
      encodeList_decodeList E n _ (by rw [List.length_drop]; omega), Nat.succ_mul,
      Nat.add_comm (n * E.size), List.take_add]

theorem drop_encodeList (E : Elem) : ∀ (l : List E.T) (n : Nat),
    (encodeList E l).drop (n * E.size) = encodeList E (l.drop n)
  | l, 0 => by simp
  | [], n + 1 => by simp [encodeList]
  | x :: l, n + 1 => by
    have hl := E.length_toBytes x
    rw [encodeList_cons, List.drop_succ_cons, Nat.succ_mul, Nat.add_comm, ← List.drop_drop,
      List.drop_append_of_le_length (by omega), List.drop_of_length_le (l := E.toBytes x) (by omega),
      List.nil_append, drop_encodeList E l n]

theorem encodeList_inj (E : Elem) {l m : List E.T} (h : encodeList E l = encodeList E m) : l = m := by
  have hlen : l.length = m.length := by
    have := congrArg List.length h
    rw [length_encodeList, length_encodeList] at this
    exact Nat.eq_of_mul_eq_mul_right E.size_pos this
  have h1 := decodeList_encodeList E l []
  have h2 := decodeList_encodeList E m []
  rw [← h1, ← h2, h, hlen]

@[simp] theorem length_overlay (E : Elem) (dest : List E.T) (b : Bytes) :
    (overlay E dest b).length = dest.length := length_decodeList ..

/-- Copying whole elements to the start of a buffer. -/
theorem overlay_encodeList (E : Elem) (dest l : List E.T) (h : l.length ≤ dest.length) :
    overlay E dest (encodeList E l) = l ++ dest.drop l.length := by
  unfold overlay
  rw [length_encodeList, drop_encodeList, ← encodeList_append]
  have hlen : dest.length = (l ++ dest.drop l.length).length := by
    rw [List.length_append, List.length_drop]; omega
  rw [hlen]
  have := decodeList_encodeList E (l ++ dest.drop l.length) []
  rwa [List.append_nil] at this

theorem overlay_nil (E : Elem) (dest : List E.T) : overlay E dest [] = dest := by
  have := overlay_encodeList E dest [] (by simp)
  simpa [encodeList] using this

@[simp] theorem length_resize (E : Elem) (buf : List E.T) (n : Nat) : (resize E buf n).length = n := by
  unfold resize
  rw [List.length_append, List.length_take, List.length_replicate]; omega

/-! ### Big-endian fields -/

theorem beNat_beBytes (k n : Nat) : beNat (beBytes k n) = n % 256 ^ k := by
  unfold beNat beBytes
  rw [reverseBytes_eq, reverseBytes_eq, List.reverse_reverse, leNat_leBytes]

@[simp] theorem length_beBytes (k n : Nat) : (beBytes k n).length = k := by
  unfold beBytes
  rw [length_reverseBytes, length_leBytes]

theorem beNat_lt (b : Bytes) : beNat b < 256 ^ b.length := by
  have := leNat_lt (reverseBytes b)
  rwa [length_reverseBytes] at this

theorem slice_append_mid (a b c : Bytes) (off len : Nat) (h1 : off = a.length) (h2 : len = b.length) :
    slice (a ++ (b ++ c)) off len = .ok b := by
  subst h1 h2
  rw [slice, if_pos (by simp only [List.length_append]; omega), List.drop_left, List.take_left]

/-! ### The header -/

/-- bytes of a list of 4-byte fields -/
def fields4 (l : List Nat) : Bytes := (l.map (beBytes 4)).flatten

theorem length_fields4 : ∀ l : List Nat, (fields4 l).length = l.length * 4
  | [] => rfl
  | x :: l => by
    have := length_fields4 l
    unfold fields4 at *
    rw [List.map_cons, List.flatten_cons, List.length_append, length_beBytes, this, List.length_cons]
    omega

theorem fields4_cons (x : Nat) (l : List Nat) : fields4 (x :: l) = beBytes 4 x ++ fields4 l := rfl

theorem readShapeLoop_eq : ∀ (l : List Nat) (d : Nat) (pre rest : Bytes), pre.length = (d + 1) * 4 →
    readShapeLoop (pre ++ (fields4 l ++ rest)) d l.length = .ok (l.map (· % 256 ^ 4))
  | [], _, _, _, _ => rfl
  | x :: l, d, pre, rest, h => by
    rw [List.length_cons, readShapeLoop, fields4_cons, List.append_assoc,
      slice_append_mid _ _ _ _ _ h.symm (by simp), Res.ok_bind]
    have ih := readShapeLoop_eq l (d + 1) (pre ++ beBytes 4 x) rest
      (by rw [List.length_append, length_beBytes, h]; omega)
    rw [List.append_assoc] at ih
    rw [ih, Res.ok_bind, beNat_beBytes]
    rfl

/-- The header as fields. -/
theorem writeN5Header_eq (shape : List Nat) (v : Bool) (n : Nat) :
    writeN5Header shape v n = beBytes 2 (if v then 1 else 0) ++ (beBytes 2 shape.length ++
      (fields4 shape.reverse ++ (if v then beBytes 4 n else []))) := by
  unfold writeN5Header fields4
  simp only [List.append_assoc, List.map_reverse]

theorem length_writeN5Header (shape : List Nat) (v : Bool) (n : Nat) :
    (writeN5Header shape v n).length = (shape.length + 1) * 4 + (if v then 4 else 0) := by
  rw [writeN5Header_eq]
  simp only [List.length_append, length_beBytes, length_fields4, List.length_reverse]
  cases v <;> simp <;> omega

theorem slice_total' (b : Bytes) (off len : Nat) (h : off + len ≤ b.length) :
    ∃ r, slice b off len = .ok r ∧ r.length = len := by
  refine ⟨_, by rw [slice, if_pos h], ?_⟩
  rw [List.length_take, List.length_drop]; omega

theorem readShapeLoop_total (b : Bytes) : ∀ n d, (d + n + 1) * 4 ≤ b.length →
    ∃ l, readShapeLoop b d n = .ok l ∧ l.length = n ∧ ∀ x ∈ l, x < 256 ^ 4
  | 0, d, _ => ⟨[], rfl, rfl, by simp⟩
  | n + 1, d, h => by
    obtain ⟨r, hr, hrl⟩ := slice_total' b ((d + 1) * 4) 4 (by omega)
    obtain ⟨l, hl, hll, hb⟩ := readShapeLoop_total b n (d + 1) (by omega)
    refine ⟨beNat r :: l, ?_, by simp [hll], ?_⟩
    · rw [readShapeLoop, hr, Res.ok_bind, hl]; rfl
    · intro x hx
      rcases List.mem_cons.1 hx with rfl | hx
      · have := beNat_lt r; rwa [hrl] at this
      · exact hb x hx

theorem readN5Header_write (shape : List Nat) (v : Bool) (n : Nat) (rest : Bytes)
    (hd : shape.length < 2 ^ 16) :
    readN5Header (writeN5Header shape v n ++ rest) =
      .ok (v, if v then n % 2 ^ 32 else accumulateMul (shape.map (· % 2 ^ 32)),
        (shape.length + 1) * 4 + (if v then 4 else 0)) := by
  have hlen := length_writeN5Header shape v n
  unfold readN5Header
  rw [if_neg (by rw [List.length_append, hlen]; omega)]
  have e0 : writeN5Header shape v n ++ rest = [] ++ (beBytes 2 (if v then 1 else 0) ++
      (beBytes 2 shape.length ++ (fields4 shape.reverse ++
        ((if v then beBytes 4 n else []) ++ rest)))) := by
    rw [writeN5Header_eq]; simp only [List.append_assoc, List.nil_append]
  have s0 : slice (writeN5Header shape v n ++ rest) 0 2 = .ok (beBytes 2 (if v then 1 else 0)) := by
    rw [e0]; exact slice_append_mid _ _ _ _ _ rfl (by simp)
  have s1 : slice (writeN5Header shape v n ++ rest) 2 2 = .ok (beBytes 2 shape.length) := by
    rw [e0, List.nil_append]; exact slice_append_mid _ _ _ _ _ (by simp) (by simp)
  have b0 : beNat (beBytes 2 (if v then 1 else 0)) = (if v then 1 else 0) := by
    rw [beNat_beBytes]; cases v <;> rfl
  have b1 : beNat (beBytes 2 shape.length) = shape.length := by
    rw [beNat_beBytes]; omega
  have e1 : writeN5Header shape v n ++ rest =
      (beBytes 2 (if v then 1 else 0) ++ beBytes 2 shape.length) ++ (fields4 shape.reverse ++
        ((if v then beBytes 4 n else []) ++ rest)) := by
    rw [e0]; simp only [List.append_assoc, List.nil_append]
  have s2 := readShapeLoop_eq shape.reverse 0 (beBytes 2 (if v then 1 else 0) ++ beBytes 2 shape.length)
    ((if v then beBytes 4 n else []) ++ rest) (by simp)
  rw [← e1, List.length_reverse] at s2
  simp only [s0, s1, Res.ok_bind, b0, b1]
  rw [if_neg (by rw [List.length_append, hlen]; cases v <;> simp <;> omega), s2, Res.ok_bind]
  cases v
  · simp only [List.map_reverse, List.reverse_reverse]
    simp
  · have s3 : slice (writeN5Header shape true n ++ rest) ((shape.length + 1) * 4) 4 =
        .ok (beBytes 4 n) := by
      rw [e1]
      have : ∀ a b c d : Bytes, a ++ (b ++ (c ++ d)) = (a ++ b) ++ (c ++ d) := by simp
      rw [this]
      apply slice_append_mid _ _ _ _ _ _ (by simp)
      rw [List.length_append, length_fields4, List.length_reverse]
      simp; omega
    simp only [if_true, s3, Res.ok_bind, beNat_beBytes]
    rfl

/-- On any bytes: throws, or returns a header length inside the buffer. -/
theorem readN5Header_safe (b : Bytes) :
    readN5Header b = .throw .runtimeError ∨
    ∃ v n h, readN5Header b = .ok (v, n, h) ∧ h ≤ b.length := by
  unfold readN5Header
  by_cases h4 : b.length < 4
  · left; rw [if_pos h4]
  · rw [if_neg h4]
    obtain ⟨m, hm, _⟩ := slice_total' b 0 2 (by omega)
    obtain ⟨nd, hnd, _⟩ := slice_total' b 2 2 (by omega)
    simp only [hm, hnd, Res.ok_bind]
    by_cases hl : b.length < (beNat nd + 1) * 4 + (if beNat m = 1 then 4 else 0)
    · left
      rw [if_pos]
      simpa using hl
    · right
      rw [if_neg (by simpa using hl)]
      obtain ⟨l, hl', _⟩ := readShapeLoop_total b (beNat nd) 0 (by omega)
      simp only [hl', Res.ok_bind]
      by_cases hv : beNat m = 1
      · rw [if_pos hv] at hl
        obtain ⟨r, hr, _⟩ := slice_total' b ((beNat nd + 1) * 4) 4 (by omega)
        refine ⟨true, beNat r, (beNat nd + 1) * 4 + 4, ?_, by omega⟩
        simp [hv, hr]
      · rw [if_neg hv] at hl
        refine ⟨false, accumulateMul l.reverse, (beNat nd + 1) * 4, ?_, by omega⟩
        simp [hv]

/-- the three leading fields of a written header -/
theorem header_slices (shape : List Nat) (v : Bool) (n : Nat) (rest : Bytes)
    (hd : shape.length < 2 ^ 16) :
    (∃ m, slice (writeN5Header shape v n ++ rest) 0 2 = .ok m ∧ beNat m = if v then 1 else 0) ∧
    (∃ m, slice (writeN5Header shape v n ++ rest) 2 2 = .ok m ∧ beNat m = shape.length) ∧
    (v = true → slice (writeN5Header shape v n ++ rest) ((shape.length + 1) * 4) 4 =
      .ok (beBytes 4 n)) := by
  have e0 : writeN5Header shape v n ++ rest = [] ++ (beBytes 2 (if v then 1 else 0) ++
      (beBytes 2 shape.length ++ (fields4 shape.reverse ++
        ((if v then beBytes 4 n else []) ++ rest)))) := by
    rw [writeN5Header_eq]; simp only [List.append_assoc, List.nil_append]
  refine ⟨⟨beBytes 2 (if v then 1 else 0), ?_, ?_⟩, ⟨beBytes 2 shape.length, ?_, ?_⟩, ?_⟩
  · rw [e0]; exact slice_append_mid _ _ _ _ _ rfl (by simp)
  · rw [beNat_beBytes]; cases v <;> rfl
  · rw [e0, List.nil_append]; exact slice_append_mid _ _ _ _ _ (by simp) (by simp)
  · rw [beNat_beBytes]; omega
  · intro hv
    subst hv
    rw [e0, List.nil_append]
    have : ∀ a b c d e : Bytes, a ++ (b ++ (c ++ (d ++ e))) = (a ++ b ++ c) ++ (d ++ e) := by simp
    rw [this]
    apply slice_append_mid _ _ _ _ _ _ (by simp)
    rw [List.length_append, length_fields4, List.length_reverse]
    simp; omega

/-- a header without varlen length is not reported as varlen -/
theorem readVarlenFromHeader_plain (shape : List Nat) (n : Nat) (rest : Bytes) (hd : shape.length < 2 ^ 16) :
    readVarlenFromHeader (writeN5Header shape false n ++ rest) = .ok none := by
  obtain ⟨⟨m, hm, hv⟩, _⟩ := header_slices shape false n rest hd
  unfold readVarlenFromHeader
  rw [hm, Res.ok_bind, if_pos (by simpa using hv)]
  rfl

theorem readVarlenFromHeader_write (shape : List Nat) (v : Bool) (n : Nat) (rest : Bytes)
    (hd : shape.length < 2 ^ 16) (hn : n < 2 ^ 32) :
    readVarlenFromHeader (writeN5Header shape v n ++ rest) = .ok (if v then some n else none) := by
  obtain ⟨⟨m, hm, hm'⟩, ⟨k, hk, hk'⟩, h3⟩ := header_slices shape v n rest hd
  unfold readVarlenFromHeader
  rw [hm, Res.ok_bind, hm']
  cases v
  · rfl
  · rw [if_neg (by simp), hk, Res.ok_bind, hk', h3 rfl, Res.ok_bind, beNat_beBytes,
      Nat.mod_eq_of_lt hn]
    rfl

theorem readShapeFromHeader_write (shape : List Nat) (v : Bool) (n : Nat) (rest : Bytes)
    (hd : shape.length < 2 ^ 16) (hs : ∀ s ∈ shape, s < 2 ^ 32) :
    readShapeFromHeader (writeN5Header shape v n ++ rest) = .ok shape := by
  obtain ⟨_, ⟨k, hk, hk'⟩, _⟩ := header_slices shape v n rest hd
  unfold readShapeFromHeader
  rw [hk, Res.ok_bind]
  simp only [hk', Res.pure_eq, Res.ok.injEq]
  rw [List.reverse_eq_iff]
  apply List.ext_getElem
  · simp
  · intro d h1 h2
    simp only [List.length_map, List.length_range] at h1
    have e : (writeN5Header shape v n ++ rest).drop ((d + 1) * 4) =
        (fields4 shape.reverse ++ ((if v then beBytes 4 n else []) ++ rest)).drop (d * 4) := by
      rw [writeN5Header_eq]
      have : ∀ a b c d e : Bytes, a ++ (b ++ (c ++ d)) ++ e = (a ++ b) ++ (c ++ (d ++ e)) := by simp
      rw [this, show (d + 1) * 4 = (beBytes 2 (if v then 1 else 0) ++ beBytes 2 shape.length).length
        + d * 4 by simp; omega, ← List.drop_drop, List.drop_left]
    have f4 : ∀ (l : List Nat) (rest : Bytes) (d : Nat) (hd : d < l.length),
        ((fields4 l ++ rest).drop (d * 4)).take 4 = beBytes 4 l[d] := by
      intro l
      induction l with
      | nil => intro _ d hd; simp at hd
      | cons x l ih =>
        intro rest d hd
        rw [fields4_cons, List.append_assoc]
        cases d with
        | zero =>
          rw [Nat.zero_mul, List.drop_zero, List.take_append_of_le_length (by simp),
            List.take_of_length_le (by simp)]
          rfl
        | succ d =>
          rw [show (d + 1) * 4 = (beBytes 4 x).length + d * 4 by simp; omega, ← List.drop_drop,
            List.drop_left, ih rest d (by simpa using hd)]
          rfl
    rw [List.getElem_map, List.getElem_range, e, f4 _ _ _ (by simpa using h1)]
    simp only [length_beBytes, Nat.sub_self, List.replicate_zero, List.append_nil, beNat_beBytes]
    rw [List.getElem_reverse]
    exact Nat.mod_eq_of_lt (hs _ (List.getElem_mem _))

end Z5
