import Verif.Model.Crc32c
import Verif.Spec.Crc

/-! # Lemmas about CRC-32C -/

namespace Z5
open Spec

/-- the linear part of the shift register -/
def L (c : BitVec 32) : BitVec 32 :=
  (c >>> 1) ^^^ (if c.getLsbD 0 then 0x82F63B78#32 else 0#32)

def Lpow : Nat → BitVec 32 → BitVec 32
  | 0, c => c
  | n + 1, c => Lpow n (L c)

theorem xor_xor_xor_comm (a b c d : BitVec 32) : (a ^^^ b) ^^^ (c ^^^ d) = (a ^^^ c) ^^^ (b ^^^ d) := by
  rw [BitVec.xor_assoc, BitVec.xor_assoc, ← BitVec.xor_assoc b c d, BitVec.xor_comm b c,
    BitVec.xor_assoc c b d]

theorem L_xor (x y : BitVec 32) : L (x ^^^ y) = L x ^^^ L y := by
  unfold L
  rw [BitVec.ushiftRight_xor_distrib, BitVec.getLsbD_xor, xor_xor_xor_comm]
  congr 1
  cases x.getLsbD 0 <;> cases y.getLsbD 0 <;> simp

theorem L_zero : L 0#32 = 0#32 := by decide

theorem Lpow_xor : ∀ n (x y : BitVec 32), Lpow n (x ^^^ y) = Lpow n x ^^^ Lpow n y
  | 0, _, _ => rfl
  | n + 1, x, y => by rw [Lpow, L_xor, Lpow_xor n]; rfl

theorem Lpow_add : ∀ m n (x : BitVec 32), Lpow (m + n) x = Lpow n (Lpow m x)
  | 0, n, x => by rw [Nat.zero_add]; rfl
  | m + 1, n, x => by rw [Nat.succ_add, Lpow, Lpow_add m n]; rfl

theorem Lpow_zero : ∀ n, Lpow n 0#32 = 0#32
  | 0 => rfl
  | n + 1 => by rw [Lpow, L_zero, Lpow_zero n]

theorem L_eq_zero {c : BitVec 32} (h : L c = 0#32) : c = 0#32 := by
  unfold L at h
  by_cases hc : c.getLsbD 0 = true
  · exfalso
    rw [if_pos hc] at h
    have h31 := congrArg (fun b => b.getLsbD 31) h
    simp only [BitVec.getLsbD_xor, BitVec.getLsbD_ushiftRight] at h31
    have h32 : c.getLsbD (1 + 31) = false := BitVec.getLsbD_of_ge c _ (by decide)
    rw [h32] at h31
    exact absurd h31 (by decide)
  · rw [if_neg hc] at h
    simp only [BitVec.xor_zero] at h
    apply BitVec.eq_of_getLsbD_eq
    intro i hi
    cases i with
    | zero => simpa using hc
    | succ j =>
      have hj := congrArg (fun b => b.getLsbD j) h
      simp only [BitVec.getLsbD_ushiftRight] at hj
      rw [Nat.add_comm] at hj
      simpa using hj

theorem Lpow_eq_zero : ∀ {n} {c : BitVec 32}, Lpow n c = 0#32 → c = 0#32
  | 0, _, h => h
  | _ + 1, _, h => L_eq_zero (Lpow_eq_zero h)

theorem Lpow_inj {n} {c d : BitVec 32} (h : Lpow n c = Lpow n d) : c = d := by
  have : Lpow n (c ^^^ d) = 0#32 := by rw [Lpow_xor, h, BitVec.xor_self]
  have := Lpow_eq_zero this
  calc c = c ^^^ (d ^^^ d) := by simp
    _ = (c ^^^ d) ^^^ d := by rw [BitVec.xor_assoc]
    _ = d := by rw [this]; simp

/-- bits as a register value, first bit least significant -/
def vec : List Bool → BitVec 32
  | [] => 0#32
  | b :: bs => (if b then 1#32 else 0#32) ^^^ (vec bs <<< 1)

theorem getLsbD_one (i : Nat) : (1#32).getLsbD i = decide (i = 0) := by
  rcases Nat.lt_or_ge i 32 with h | h
  · revert i; decide
  · rw [BitVec.getLsbD_of_ge _ _ h]; symm; rw [decide_eq_false_iff_not]; omega

theorem getLsbD_vec : ∀ (bs : List Bool) (i : Nat), i < 32 → (vec bs).getLsbD i = bs.getD i false
  | [], i, _ => by simp [vec]
  | b :: bs, i, hi => by
    rw [vec, BitVec.getLsbD_xor, BitVec.getLsbD_shiftLeft]
    cases i with
    | zero => cases b <;> simp
    | succ j =>
      have ih := getLsbD_vec bs j (by omega)
      have hb : (if b then 1#32 else 0#32).getLsbD (j + 1) = false := by
        cases b
        · simp
        · simp only [if_true]; rw [getLsbD_one]; simp
      rw [hb]
      simp only [hi, decide_true, Bool.true_and, Bool.false_xor, Nat.add_sub_cancel,
        show ¬ (j + 1 < 1) by omega, decide_false, Bool.not_false, ih]
      simp

theorem L_shl {v : BitVec 32} (h : v.getLsbD 31 = false) : L (v <<< 1) = v := by
  unfold L
  have h0 : (v <<< 1).getLsbD 0 = false := by simp
  rw [h0]
  simp only [Bool.false_eq_true, if_false, BitVec.xor_zero]
  apply BitVec.eq_of_getLsbD_eq
  intro i hi
  rw [BitVec.getLsbD_ushiftRight, BitVec.getLsbD_shiftLeft]
  rcases Nat.lt_or_ge (1 + i) 32 with h1 | h1
  · have : 1 + i - 1 = i := by omega
    simp [h1, this]
  · have : i = 31 := by omega
    subst this
    rw [h]; simp

theorem crcShift_eq (c : BitVec 32) (b : Bool) :
    crcShift c b = L (c ^^^ (if b then 1#32 else 0#32)) := by
  unfold crcShift L
  have h1 : ((if b then 1#32 else 0#32) : BitVec 32) >>> 1 = 0#32 := by cases b <;> decide
  have h2 : ((if b then 1#32 else 0#32) : BitVec 32).getLsbD 0 = b := by cases b <;> decide
  rw [BitVec.ushiftRight_xor_distrib, h1, BitVec.getLsbD_xor, h2, BitVec.xor_zero]

theorem foldl_crcShift : ∀ (bs : List Bool) (c : BitVec 32), bs.length ≤ 32 →
    bs.foldl crcShift c = Lpow bs.length (c ^^^ vec bs)
  | [], c, _ => by simp [vec, Lpow]
  | b :: bs, c, h => by
    have h' : bs.length ≤ 31 := by simpa using h
    rw [List.foldl_cons, foldl_crcShift bs _ (by omega), crcShift_eq, vec, List.length_cons, Lpow]
    have ht : (vec bs).getLsbD 31 = false := by
      rw [getLsbD_vec bs 31 (by omega)]
      simp [List.getD_eq_getElem?_getD, List.getElem?_eq_none h']
    rw [← BitVec.xor_assoc, L_xor (c ^^^ _), L_shl ht]

theorem foldl_crcShift_xor : ∀ (m m' : List Bool) (c c' : BitVec 32), m.length = m'.length →
    m.foldl crcShift c ^^^ m'.foldl crcShift c' =
      (List.zipWith (fun a b => a ^^ b) m m').foldl crcShift (c ^^^ c')
  | [], [], _, _, _ => rfl
  | a :: m, b :: m', c, c', h => by
    rw [List.foldl_cons, List.foldl_cons, foldl_crcShift_xor m m' _ _ (by simpa using h),
      List.zipWith_cons_cons, List.foldl_cons]
    congr 1
    rw [crcShift_eq, crcShift_eq, crcShift_eq, ← L_xor, xor_xor_xor_comm]
    congr 2
    cases a <;> cases b <;> decide

theorem foldl_crcShift_false : ∀ (n : Nat) (c : BitVec 32),
    (List.replicate n false).foldl crcShift c = Lpow n c
  | 0, _ => rfl
  | n + 1, c => by
    rw [List.replicate_succ, List.foldl_cons, foldl_crcShift_false n, crcShift_eq]
    simp [Lpow]

/-! ## table step = eight clocks -/

theorem crcTableBit_eq (c : BitVec 32) : crcTableBit c = L c := by
  unfold crcTableBit L
  have h : c &&& 1#32 ≠ 0#32 ↔ c.getLsbD 0 = true := by
    constructor
    · intro h
      rcases hb : c.getLsbD 0 with _ | _
      · exfalso; apply h
        apply BitVec.eq_of_getLsbD_eq
        intro i _
        rw [BitVec.getLsbD_and, getLsbD_one]
        by_cases hi : i = 0
        · subst hi; rw [hb]; rfl
        · simp [hi]
      · rfl
    · intro h h0
      have := congrArg (fun b => b.getLsbD 0) h0
      simp only [BitVec.getLsbD_and, getLsbD_one, h] at this
      exact absurd this (by decide)
  by_cases hc : c.getLsbD 0 = true
  · rw [if_pos (h.2 hc), if_pos hc]
  · rw [if_neg (fun hh => hc (h.1 hh)), if_neg hc, BitVec.xor_zero]

theorem crcTableLoop_eq : ∀ n c, crcTableLoop n c = Lpow n c
  | 0, _ => rfl
  | n + 1, c => by rw [crcTableLoop, crcTableBit_eq, crcTableLoop_eq n]; rfl

theorem Lpow_shl : ∀ (n : Nat) (v : BitVec 32), (∀ i, 32 - n ≤ i → v.getLsbD i = false) →
    n ≤ 32 → Lpow n (v <<< n) = v
  | 0, v, _, _ => by simp [Lpow]
  | n + 1, v, h, hn => by
    have h31 : (v <<< n).getLsbD 31 = false := by
      rw [BitVec.getLsbD_shiftLeft, h (31 - n) (by omega)]; simp
    have e : v <<< (n + 1) = (v <<< n) <<< 1 := by rw [BitVec.shiftLeft_add]
    rw [Lpow, e, L_shl h31]
    exact Lpow_shl n v (fun i hi => h i (by omega)) (by omega)

theorem length_byteBits (b : Byte) : (byteBits b).length = 8 := by simp [byteBits]

theorem vec_byteBits (b : Byte) : vec (byteBits b) = b.setWidth 32 := by
  apply BitVec.eq_of_getLsbD_eq
  intro i hi
  rw [getLsbD_vec _ _ hi, BitVec.getLsbD_setWidth, byteBits]
  rcases Nat.lt_or_ge i 8 with h | h
  · simp [List.getD_eq_getElem?_getD, h, hi]
  · simp [List.getD_eq_getElem?_getD, h]

theorem getLsbD_ff (i : Nat) : (0xFF#32).getLsbD i = decide (i < 8) := by
  rcases Nat.lt_or_ge i 32 with h | h
  · revert i; decide
  · rw [BitVec.getLsbD_of_ge _ _ h]; symm; rw [decide_eq_false_iff_not]; omega

theorem crcByte_eq (c : BitVec 32) (p : Byte) : crcByte c p = (byteBits p).foldl crcShift c := by
  rw [foldl_crcShift _ _ (by rw [length_byteBits]; omega), vec_byteBits, length_byteBits, crcByte,
    crcTable, crcTableLoop_eq]
  have hsplit : ∀ x : BitVec 32, x = (x &&& 0xFF#32) ^^^ ((x >>> 8) <<< 8) := by
    intro x
    apply BitVec.eq_of_getLsbD_eq
    intro i hi
    rw [BitVec.getLsbD_xor, BitVec.getLsbD_and, BitVec.getLsbD_shiftLeft,
      BitVec.getLsbD_ushiftRight, getLsbD_ff]
    rcases Nat.lt_or_ge i 8 with h | h
    · simp [h]
    · have : 8 + (i - 8) = i := by omega
      simp [show ¬ i < 8 by omega, hi, this]
  conv => rhs; rw [hsplit (c ^^^ p.setWidth 32)]
  rw [Lpow_xor, Lpow_shl 8 _ _ (by omega)]
  · congr 1
    rw [BitVec.ushiftRight_xor_distrib]
    have : (p.setWidth 32) >>> 8 = 0#32 := by
      apply BitVec.eq_of_getLsbD_eq
      intro i hi
      rw [BitVec.getLsbD_ushiftRight, BitVec.getLsbD_setWidth, BitVec.getLsbD_of_ge p (8 + i) (by omega)]
      simp
    rw [this, BitVec.xor_zero]
  · intro i hi
    rw [BitVec.getLsbD_ushiftRight]
    exact BitVec.getLsbD_of_ge _ _ (by omega)

theorem foldl_crcByte : ∀ (m : Bytes) (c : BitVec 32),
    m.foldl crcByte c = (messageBits m).foldl crcShift c
  | [], _ => rfl
  | b :: m, c => by
    rw [List.foldl_cons, crcByte_eq, foldl_crcByte m]
    unfold messageBits
    rw [List.flatMap_cons, List.foldl_append]

theorem crc32c_eq_spec (m : Bytes) (seed : BitVec 32) : crc32c m seed = Spec.crc32c m seed := by
  unfold crc32c Spec.crc32c
  rw [foldl_crcByte]

/-! ## code words and residue -/

theorem length_messageBits : ∀ m : Bytes, (messageBits m).length = 8 * m.length
  | [] => rfl
  | b :: m => by
    have := length_messageBits m
    unfold messageBits at this
    rw [messageBits, List.flatMap_cons, List.length_append, length_byteBits, this,
      List.length_cons]; omega

theorem messageBits_append (a b : Bytes) : messageBits (a ++ b) = messageBits a ++ messageBits b := by
  simp [messageBits, List.flatMap_append]

theorem byteBits_inj {a b : Byte} (h : byteBits a = byteBits b) : a = b := by
  apply BitVec.eq_of_getLsbD_eq
  intro i hi
  have := congrArg (fun l => l[i]?) h
  simp only [byteBits, List.getElem?_map, List.getElem?_range hi, Option.map_some,
    Option.some.injEq] at this
  exact this

theorem messageBits_inj : ∀ {a b : Bytes}, messageBits a = messageBits b → a = b
  | [], [], _ => rfl
  | [], b :: bs, h => by
    have := congrArg List.length h
    rw [length_messageBits, length_messageBits, List.length_cons] at this
    simp at this
  | a :: as, [], h => by
    have := congrArg List.length h
    rw [length_messageBits, length_messageBits, List.length_cons] at this
    simp at this
  | a :: as, b :: bs, h => by
    unfold messageBits at h
    rw [List.flatMap_cons, List.flatMap_cons] at h
    have := List.append_inj h (by rw [length_byteBits, length_byteBits])
    rw [byteBits_inj this.1, messageBits_inj this.2]

/-- value of the low 32 bits of a bit list as produced by bytes -/
theorem vec_messageBits_leBytes (n : Nat) :
    vec (messageBits (leBytes 4 n)) = BitVec.ofNat 32 n := by
  apply BitVec.eq_of_getLsbD_eq
  intro i hi
  rw [getLsbD_vec _ _ hi]
  have hb : ∀ (m : Nat), byteBits (BitVec.ofNat 8 m) = (List.range 8).map fun i => m.testBit i := by
    intro m
    unfold byteBits
    apply List.map_congr_left
    intro i hi
    rw [BitVec.getLsbD_ofNat]
    simp [List.mem_range.1 hi]
  rw [BitVec.getLsbD_ofNat]
  simp only [messageBits, leBytes, List.flatMap_cons, List.flatMap_nil, hb, hi, decide_true,
    Bool.true_and]
  have e : ∀ m j, (m / 256).testBit j = m.testBit (8 + j) := by
    intro m j
    rw [show 256 = 2 ^ 8 from rfl, Nat.testBit_div_two_pow, Nat.add_comm]
  simp only [e]
  have hr : List.range 8 = [0,1,2,3,4,5,6,7] := by decide
  simp only [hr, List.map_cons, List.map_nil, List.append_nil, List.cons_append, List.nil_append]
  have key : ∀ f : Nat → Bool, ∀ i, i < 32 → ([f 0, f 1, f 2, f 3, f 4, f 5, f 6, f 7, f 8, f 9, f 10,
      f 11, f 12, f 13, f 14, f 15, f 16, f 17, f 18, f 19, f 20, f 21, f 22, f 23, f 24, f 25, f 26,
      f 27, f 28, f 29, f 30, f 31] : List Bool).getD i false = f i := by
    intro f i hi
    have : ∀ k, k < 32 → ((List.range 32).map f).getD k false = f k := by
      intro k hk; simp [List.getD_eq_getElem?_getD, hk]
    exact this i hi
  exact key n.testBit i hi

/-- a message followed by its little-endian checksum leaves a fixed register value, and only then -/
theorem residue_iff (m crc : Bytes) (hl : crc.length = 4) :
    (crc32c m).toNat = leNat crc ↔
      (messageBits (m ++ crc)).foldl crcShift (~~~ 0#32) = Lpow 32 (BitVec.allOnes 32) := by
  rw [messageBits_append, List.foldl_append,
    foldl_crcShift (messageBits crc) _ (by rw [length_messageBits, hl]; omega), length_messageBits, hl]
  have hv : vec (messageBits crc) = BitVec.ofNat 32 (leNat crc) := by
    have := vec_messageBits_leBytes (leNat crc)
    rw [← hl, leBytes_leNat] at this
    exact this
  have hlt : leNat crc < 2 ^ 32 := by
    have := leNat_lt crc; rw [hl] at this; exact this
  rw [hv]
  unfold crc32c
  rw [foldl_crcByte]
  generalize (messageBits m).foldl crcShift (~~~ 0#32) = r
  constructor
  · intro h
    rw [← h, BitVec.ofNat_toNat, BitVec.setWidth_eq]
    congr 1
    apply BitVec.eq_of_getLsbD_eq
    intro i hi
    rw [BitVec.getLsbD_xor, BitVec.getLsbD_not, BitVec.getLsbD_allOnes]
    simp [hi]
  · intro h
    have h := Lpow_inj (n := 32) h
    have h2 : ~~~ r = BitVec.ofNat 32 (leNat crc) := by
      apply BitVec.eq_of_getLsbD_eq
      intro i hi
      have := congrArg (fun b => b.getLsbD i) h
      simp only [BitVec.getLsbD_xor, BitVec.getLsbD_allOnes, hi, decide_true] at this
      rw [BitVec.getLsbD_not]
      simp only [hi, decide_true, Bool.true_and]
      revert this
      cases r.getLsbD i <;> cases (BitVec.ofNat 32 (leNat crc)).getLsbD i <;> simp
    rw [h2, BitVec.toNat_ofNat, Nat.mod_eq_of_lt hlt]

theorem eq_of_zipWith_xor : ∀ {a b : List Bool}, a.length = b.length →
    (∀ x ∈ List.zipWith (fun a b => a ^^ b) a b, x = false) → a = b
  | [], [], _, _ => rfl
  | a :: as, b :: bs, h, hx => by
    simp only [List.zipWith_cons_cons, List.mem_cons, forall_eq_or_imp] at hx
    rw [eq_of_zipWith_xor (by simpa using h) hx.2]
    congr 1
    revert hx; cases a <;> cases b <;> simp

theorem eq_replicate_false {l : List Bool} (h : ∀ x ∈ l, x = false) :
    l = List.replicate l.length false := List.eq_replicate_iff.2 ⟨rfl, h⟩

/-- a non-zero error pattern inside a window of 32 bits changes the register -/
theorem burst_nonzero {e : List Bool} {k : Nat} (hk : k + 32 ≤ e.length)
    (hw : ∀ j, e[j]? = some true → k ≤ j ∧ j < k + 32)
    (h0 : e.foldl crcShift 0#32 = 0#32) : ∀ x ∈ e, x = false := by
  have he : e = e.take k ++ ((e.drop k).take 32 ++ (e.drop k).drop 32) := by
    rw [List.take_append_drop, List.take_append_drop]
  have hpre : ∀ x ∈ e.take k, x = false := by
    intro x hx
    obtain ⟨j, hj⟩ := List.getElem?_of_mem hx
    cases x with
    | false => rfl
    | true =>
      rcases Nat.lt_or_ge j k with h | h
      · rw [List.getElem?_take_of_lt h] at hj
        have := (hw j hj).1; omega
      · rw [List.getElem?_eq_none (by simp; omega)] at hj; simp at hj
  have hpost : ∀ x ∈ (e.drop k).drop 32, x = false := by
    intro x hx
    obtain ⟨j, hj⟩ := List.getElem?_of_mem hx
    cases x with
    | false => rfl
    | true =>
      rw [List.getElem?_drop, List.getElem?_drop] at hj
      have := (hw _ hj).2; omega
  have hwl : ((e.drop k).take 32).length = 32 := by simp; omega
  rw [he, List.foldl_append, List.foldl_append, eq_replicate_false hpre, foldl_crcShift_false,
    Lpow_zero, eq_replicate_false hpost, foldl_crcShift_false,
    foldl_crcShift _ _ (by rw [hwl]; omega)] at h0
  have hz := Lpow_eq_zero (Lpow_eq_zero h0)
  rw [BitVec.zero_xor] at hz
  have hmid : ∀ x ∈ (e.drop k).take 32, x = false := by
    intro x hx
    obtain ⟨j, hj⟩ := List.getElem?_of_mem hx
    have hj32 : j < 32 := by
      rcases Nat.lt_or_ge j 32 with h | h
      · exact h
      · rw [List.getElem?_eq_none (by omega)] at hj; simp at hj
    have := getLsbD_vec ((e.drop k).take 32) j hj32
    rw [hz, List.getD_eq_getElem?_getD, hj] at this
    simpa using this.symm
  intro x hx
  rw [he] at hx
  rcases List.mem_append.1 hx with h | h
  · exact hpre x h
  · rcases List.mem_append.1 h with h | h
    · exact hmid x h
    · exact hpost x h

theorem getElem?_zipWith_xor {a b : List Bool} (h : a.length = b.length) (j : Nat) :
    (List.zipWith (fun a b => a ^^ b) a b)[j]? = some true ↔ a[j]? ≠ b[j]? := by
  rw [List.getElem?_zipWith]
  rcases Nat.lt_or_ge j a.length with h1 | h1
  · have h2 : j < b.length := by omega
    rw [List.getElem?_eq_getElem h1, List.getElem?_eq_getElem h2]
    cases a[j] <;> cases b[j] <;> simp
  · rw [List.getElem?_eq_none h1, List.getElem?_eq_none (by omega)]; simp

/-- two different code words (message followed by checksum) of equal length differ in bits that are at
least 33 positions apart -/
theorem codewords_differ {m m' crc crc' : Bytes} (hl : crc.length = 4) (hl' : crc'.length = 4)
    (hm : m'.length = m.length) (hv : (crc32c m).toNat = leNat crc)
    (hv' : (crc32c m').toNat = leNat crc') (k : Nat)
    (hw : ∀ j, (messageBits (m' ++ crc'))[j]? ≠ (messageBits (m ++ crc))[j]? → k ≤ j ∧ j < k + 32) :
    m' ++ crc' = m ++ crc := by
  have e := (residue_iff m crc hl).1 hv
  have e' := (residue_iff m' crc' hl').1 hv'
  have hlen : (messageBits (m' ++ crc')).length = (messageBits (m ++ crc)).length := by
    rw [length_messageBits, length_messageBits, List.length_append, List.length_append, hm, hl, hl']
  have hx := foldl_crcShift_xor _ _ (~~~ 0#32) (~~~ 0#32) hlen
  rw [e, e', BitVec.xor_self, BitVec.xor_self] at hx
  apply messageBits_inj
  apply eq_of_zipWith_xor hlen
  have hN : 32 ≤ (messageBits (m ++ crc)).length := by
    rw [length_messageBits, List.length_append, hl]; omega
  refine burst_nonzero (k := min k ((messageBits (m ++ crc)).length - 32)) ?_ ?_ hx.symm
  · rw [List.length_zipWith]; omega
  · intro j hj
    have := hw j ((getElem?_zipWith_xor hlen j).1 hj)
    have hjl : j < (messageBits (m ++ crc)).length := by
      rcases Nat.lt_or_ge j (messageBits (m ++ crc)).length with h | h
      · exact h
      · rw [List.getElem?_eq_none (by rw [List.length_zipWith]; omega)] at hj; simp at hj
    omega

/-! ## odd number of flipped bits -/

def parity : List Bool → Bool
  | [] => false
  | b :: bs => b ^^ parity bs

def bitParity (c : BitVec 32) : Bool := parity ((List.range 32).map c.getLsbD)

theorem parity_append : ∀ a b, parity (a ++ b) = (parity a ^^ parity b)
  | [], _ => by simp [parity]
  | x :: a, b => by simp [parity, parity_append a b, Bool.xor_assoc]

theorem parity_map_xor {α : Type} (f g : α → Bool) : ∀ l : List α,
    parity (l.map fun i => f i ^^ g i) = (parity (l.map f) ^^ parity (l.map g))
  | [] => rfl
  | a :: l => by
    simp only [List.map_cons, parity, parity_map_xor f g l]
    cases f a <;> cases g a <;> cases parity (l.map f) <;> cases parity (l.map g) <;> rfl

theorem bitParity_xor (a b : BitVec 32) : bitParity (a ^^^ b) = (bitParity a ^^ bitParity b) := by
  unfold bitParity
  rw [← parity_map_xor]
  congr 1
  apply List.map_congr_left
  intro i _
  rw [BitVec.getLsbD_xor]

theorem bitParity_shr (c : BitVec 32) : bitParity (c >>> 1) = (bitParity c ^^ c.getLsbD 0) := by
  unfold bitParity
  have h1 : (List.range 32).map c.getLsbD =
      c.getLsbD 0 :: (List.range 31).map fun i => c.getLsbD (1 + i) := by
    rw [List.range_succ_eq_map]
    simp [Function.comp_def, Nat.add_comm]
  have h2 : (List.range 32).map (c >>> 1).getLsbD =
      ((List.range 31).map fun i => c.getLsbD (1 + i)) ++ [false] := by
    rw [List.range_succ, List.map_append]
    simp only [BitVec.getLsbD_ushiftRight, List.map_cons, List.map_nil]
    rw [BitVec.getLsbD_of_ge c (1 + 31) (by omega)]
    congr 1
  rw [h1, h2, parity_append]
  simp only [parity]
  cases c.getLsbD 0 <;> cases parity ((List.range 31).map fun i => c.getLsbD (1 + i)) <;> rfl

theorem bitParity_crcShift (c : BitVec 32) (b : Bool) :
    bitParity (crcShift c b) = (bitParity c ^^ b) := by
  unfold crcShift
  rw [bitParity_xor, bitParity_shr]
  have hp : bitParity 0x82F63B78#32 = true := by decide
  have h0 : bitParity 0#32 = false := by decide
  cases c.getLsbD 0 <;> cases b <;> simp [hp, h0]

theorem bitParity_foldl : ∀ (e : List Bool) (c : BitVec 32),
    bitParity (e.foldl crcShift c) = (bitParity c ^^ parity e)
  | [], c => by simp [parity]
  | b :: e, c => by
    rw [List.foldl_cons, bitParity_foldl e, bitParity_crcShift]
    simp [parity, Bool.xor_assoc]

theorem codewords_even {m m' crc crc' : Bytes} (hl : crc.length = 4) (hl' : crc'.length = 4)
    (hm : m'.length = m.length) (hv : (crc32c m).toNat = leNat crc)
    (hv' : (crc32c m').toNat = leNat crc') :
    parity (List.zipWith (fun a b => a ^^ b) (messageBits (m' ++ crc')) (messageBits (m ++ crc)))
      = false := by
  have e := (residue_iff m crc hl).1 hv
  have e' := (residue_iff m' crc' hl').1 hv'
  have hlen : (messageBits (m' ++ crc')).length = (messageBits (m ++ crc)).length := by
    rw [length_messageBits, length_messageBits, List.length_append, List.length_append, hm, hl, hl']
  have hx := foldl_crcShift_xor _ _ (~~~ 0#32) (~~~ 0#32) hlen
  rw [e, e', BitVec.xor_self, BitVec.xor_self] at hx
  have := bitParity_foldl (List.zipWith (fun a b => a ^^ b) (messageBits (m' ++ crc'))
    (messageBits (m ++ crc))) 0#32
  rw [← hx] at this
  have h0 : bitParity 0#32 = false := by decide
  rw [h0] at this
  simpa using this.symm

end Z5
