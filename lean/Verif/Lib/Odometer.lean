import Verif.Lib.Pointwise

/-! # Mixed-radix counting -/

namespace Z5

theorem succ_div_of_mod_eq {P k : Nat} (hP : 0 < P) (h : (k + 1) % P = 0) :
    (k + 1) / P = k / P + 1 := by
  have e1 := Nat.div_add_mod (k + 1) P
  have e2 := Nat.div_add_mod k P
  have hm := Nat.mod_lt k hP
  have h1 : k / P < (k + 1) / P := by
    rcases Nat.lt_or_ge (k / P) ((k + 1) / P) with h1 | h1
    · exact h1
    · have := Nat.mul_le_mul_left P h1; omega
  have h2 : (k + 1) / P ≤ k / P + 1 := by
    rcases Nat.lt_or_ge (k / P + 1) ((k + 1) / P) with h2 | h2
    · have := Nat.mul_le_mul_left P h2
      rw [Nat.succ_eq_add_one, Nat.mul_add, Nat.mul_add] at this; omega
    · exact h2
  omega

theorem succ_div_of_mod_ne {P k : Nat} (hP : 0 < P) (h : (k + 1) % P ≠ 0) :
    (k + 1) / P = k / P := by
  have e1 := Nat.div_add_mod (k + 1) P
  have hm := Nat.mod_lt (k + 1) hP
  symm
  rw [Nat.div_eq_iff hP]
  rw [Nat.mul_comm] at e1
  omega

theorem mod_mul_eq_zero {n P k : Nat} (hP : 0 < P) :
    k % (n * P) = 0 ↔ k % P = 0 ∧ k / P % n = 0 := by
  have := Nat.mod_mul_left_div_self k P n
  have h2 := Nat.mod_mul_left_mod k n P
  constructor
  · intro h
    rw [h] at this h2
    simp at this h2
    exact ⟨h2.symm, this.symm⟩
  · rintro ⟨h1, h3⟩
    rw [h3] at this
    rw [h1] at h2
    have hd := Nat.div_add_mod (k % (n * P)) P
    rw [this, h2] at hd
    simpa using hd.symm

theorem mod_succ_cases {n q : Nat} (hn : 0 < n) :
    (q % n + 1 < n ∧ (q + 1) % n = q % n + 1) ∨ (q % n + 1 = n ∧ (q + 1) % n = 0) := by
  have hm := Nat.mod_lt q hn
  have e := Nat.div_add_mod q n
  rcases Nat.lt_or_ge (q % n + 1) n with h | h
  · left
    refine ⟨h, ?_⟩
    have : q + 1 = (q % n + 1) + n * (q / n) := by omega
    rw [this, Nat.add_mul_mod_self_left, Nat.mod_eq_of_lt h]
  · right
    refine ⟨by omega, ?_⟩
    have : q + 1 = 0 + n * (q / n + 1) := by rw [Nat.mul_add]; omega
    rw [this, Nat.add_mul_mod_self_left, Nat.zero_mod]

end Z5
