import Verif.Model.JsonText

/-!
# UTF-8: decoding undoes encoding, also for a part of a text
-/

namespace Z5

namespace Utf8

theorem byte_toNat {n : Nat} (h : n < 256) : (BitVec.ofNat 8 n).toNat = n := by
  rw [BitVec.toNat_ofNat]; exact Nat.mod_eq_of_lt h

theorem cont_ofNat {n : Nat} (h : n < 64) : cont (BitVec.ofNat 8 (0x80 + n)) = some n := by
  rw [cont, byte_toNat (by omega), if_pos (by omega)]
  rw [Nat.add_sub_cancel_left]

theorem ofNat_eq {c : Char} {n : Nat} (h : n = c.toNat) : Char.ofNat n = c := by rw [h, Char.ofNat_toNat]

theorem decode2 {c n : Nat} (h1 : ¬ c < 0x80) (h2 : c < 0x800) (e : n = 0xC0 + c / 64) :
    n < 256 ∧ ¬ n < 0x80 ∧ ¬ n < 0xC2 ∧ n < 0xE0 ∧ (n - 0xC0) * 64 + c % 64 = c := by omega

theorem decode3 {c n : Nat} (h1 : ¬ c < 0x800) (h2 : c < 0x10000) (e : n = 0xE0 + c / 4096) :
    n < 256 ∧ ¬ n < 0x80 ∧ ¬ n < 0xC2 ∧ ¬ n < 0xE0 ∧ n < 0xF0 ∧ (n - 0xE0) * 4096 + c / 64 % 64 * 64 + c % 64 = c := by omega

theorem decode4 {c n : Nat} (h1 : ¬ c < 0x10000) (h2 : c < 0x110000) (e : n = 0xF0 + c / 262144) :
    n < 256 ∧ ¬ n < 0x80 ∧ ¬ n < 0xC2 ∧ ¬ n < 0xE0 ∧ ¬ n < 0xF0 ∧ n < 0xF5 ∧
      (n - 0xF0) * 262144 + c / 4096 % 64 * 4096 + c / 64 % 64 * 64 + c % 64 = c := by omega

theorem decodeChar_encodeChar (c : Char) (r : Bytes) : decodeChar (encodeChar c ++ r) = some (c, r) := by
  have hv : c.toNat < 0xD800 ∨ (0xDFFF < c.toNat ∧ c.toNat < 0x110000) := c.valid
  simp only [encodeChar]
  split
  · rename_i h
    simp only [List.cons_append, List.nil_append, decodeChar]
    rw [byte_toNat (by omega), if_pos h, Char.ofNat_toNat]
  rename_i h1
  split
  · rename_i h2
    simp only [List.cons_append, List.nil_append, decodeChar]
    rw [cont_ofNat (Nat.mod_lt _ (by decide))]
    obtain ⟨k1, k2, k3, k4, k5⟩ := decode2 h1 h2 rfl
    rw [byte_toNat k1, if_neg k2, if_neg k3, if_pos k4]
    simp only
    rw [k5, Char.ofNat_toNat]
  rename_i h2
  split
  · rename_i h3
    simp only [List.cons_append, List.nil_append, decodeChar]
    rw [cont_ofNat (Nat.mod_lt _ (by decide)), cont_ofNat (Nat.mod_lt _ (by decide))]
    obtain ⟨k1, k2, k3, k4, k5, k6⟩ := decode3 h2 h3 rfl
    rw [byte_toNat k1, if_neg k2, if_neg k3, if_neg k4, if_pos k5]
    simp only
    rw [k6, if_neg (by omega), Char.ofNat_toNat]
  · rename_i h3
    simp only [List.cons_append, List.nil_append, decodeChar]
    rw [cont_ofNat (Nat.mod_lt _ (by decide)), cont_ofNat (Nat.mod_lt _ (by decide)), cont_ofNat (Nat.mod_lt _ (by decide))]
    obtain ⟨k1, k2, k3, k4, k5, k6, k7⟩ := decode4 h3 (by omega) rfl
    rw [byte_toNat k1, if_neg k2, if_neg k3, if_neg k4, if_neg k5, if_pos k6]
    simp only
    rw [k7, if_neg (by omega), Char.ofNat_toNat]

theorem decodeChar_append {p s r : Bytes} {c : Char} (e : decodeChar p = some (c, r)) :
    decodeChar (p ++ s) = some (c, r ++ s) := by
  cases p with
  | nil => cases e
  | cons b p =>
    simp only [decodeChar, List.cons_append] at e ⊢
    split at e
    · rename_i h; cases e; rw [if_pos h]
    rename_i h; rw [if_neg h]; clear h
    split at e
    · cases e
    rename_i h; rw [if_neg h]; clear h
    split at e
    · rename_i h; rw [if_pos h]
      match p with
      | [] => cases e
      | x :: p =>
        simp only [List.cons_append] at e ⊢
        split at e
        · cases e; simp only [*]
        · cases e
    rename_i h; rw [if_neg h]; clear h
    split at e
    · rename_i h; rw [if_pos h]
      match p with
      | [] | [_] => cases e
      | x :: y :: p =>
        simp only [List.cons_append] at e ⊢
        split at e
        · rename_i h1 h2
          split at e
          · cases e
          · rename_i h3; rw [if_neg h3]; cases e; rfl
        · cases e
    rename_i h; rw [if_neg h]; clear h
    split at e
    · rename_i h; rw [if_pos h]
      match p with
      | [] | [_] | [_, _] => cases e
      | x :: y :: z :: p =>
        simp only [List.cons_append] at e ⊢
        split at e
        · rename_i h1 h2 h3
          split at e
          · cases e
          · rename_i h3; rw [if_neg h3]; cases e; rfl
        · cases e
    · cases e

theorem encode_cons (c : Char) (t : List Char) : encode (c :: t) = encodeChar c ++ encode t := rfl

theorem encode_append (s t : List Char) : encode (s ++ t) = encode s ++ encode t := by simp [encode]

theorem length_encodeChar (c : Char) : 1 ≤ (encodeChar c).length := by
  simp only [encodeChar]
  repeat' split
  all_goals simp

theorem length_encode (t : List Char) : t.length ≤ (encode t).length := by
  induction t with
  | nil => simp
  | cons c t ih =>
    have := length_encodeChar c
    rw [encode_cons, List.length_append, List.length_cons]
    omega

theorem decode_encode : ∀ (t : List Char) (n : Nat), t.length ≤ n → decode n (encode t) = (t, [])
  | [], n, _ => by cases n <;> rfl
  | c :: t, n, h => by
    cases n with
    | zero => simp at h
    | succ n =>
      rw [encode_cons, decode, decodeChar_encodeChar]
      simp only
      rw [decode_encode t n (by simpa using h)]

/-- what is decoded from the first bytes of a text is a beginning of the text -/
theorem decode_prefix : ∀ (n : Nat) (p s : Bytes) (t : List Char), p ++ s = encode t →
    ∃ u, t = (decode n p).1 ++ u ∧ (decode n p).2 ++ s = encode u
  | 0, p, s, t, h => ⟨t, rfl, h⟩
  | n + 1, p, s, t, h => by
    rw [decode]
    cases e : decodeChar p with
    | none => exact ⟨t, rfl, h⟩
    | some x =>
      obtain ⟨c, r⟩ := x
      have e' := decodeChar_append (s := s) e
      rw [h] at e'
      cases t with
      | nil => cases e'
      | cons d t =>
        rw [encode_cons, decodeChar_encodeChar] at e'
        simp only [Option.some.injEq, Prod.mk.injEq] at e'
        obtain ⟨rfl, e'⟩ := e'
        obtain ⟨u, hu, hu'⟩ := decode_prefix n r s t e'.symm
        exact ⟨u, by rw [List.cons_append, ← hu], hu'⟩

end Utf8

end Z5
