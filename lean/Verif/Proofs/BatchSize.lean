import Verif.Model.BatchSize

/-!
# Rounding errors in the batch size
-/

namespace Z5.Flt

theorem roundDiv_le (n d : Nat) : 2 * (d * roundDiv n d) ≤ 2 * n + d := by
  unfold roundDiv
  have h := Nat.div_add_mod n d
  split
  · rw [Nat.mul_add]; omega
  · omega

theorem le_roundDiv {d : Nat} (n : Nat) (hd : 0 < d) : 2 * n ≤ 2 * (d * roundDiv n d) + d := by
  unfold roundDiv
  have h := Nat.div_add_mod n d
  have h1 := Nat.mod_lt n hd
  split
  · rw [Nat.mul_add]; omega
  · omega

theorem exp_le {num den : Nat} (hd : 0 < den) :
    den * 2 ^ ((Nat.log2 (num / den) + 1) - 24) * 2 ^ 23 ≤ num + den * 2 ^ 23 := by
  by_cases h : Nat.log2 (num / den) + 1 ≤ 24
  · rw [show Nat.log2 (num / den) + 1 - 24 = 0 by omega]
    omega
  · have h0 : num / den ≠ 0 := by
      intro e
      rw [e] at h
      exact h (by decide)
    have h1 := Nat.log2_self_le h0
    have h2 : 2 ^ ((Nat.log2 (num / den) + 1) - 24) * 2 ^ 23 = 2 ^ Nat.log2 (num / den) := by
      rw [← Nat.pow_add]
      congr 1
      omega
    rw [Nat.mul_assoc, h2]
    have h3 : den * 2 ^ Nat.log2 (num / den) ≤ den * (num / den) := Nat.mul_le_mul_left _ h1
    have h4 := Nat.mul_div_le num den
    omega

theorem round_le {den : Nat} (num : Nat) (hd : 0 < den) :
    2 ^ 24 * (den * round num den) ≤ (2 ^ 24 + 1) * num + 2 ^ 23 * den := by
  unfold round
  have h1 := roundDiv_le num (den * 2 ^ ((Nat.log2 (num / den) + 1) - 24))
  have h2 := exp_le (num := num) hd
  generalize (Nat.log2 (num / den) + 1) - 24 = e at h1 h2
  dsimp only
  generalize roundDiv num (den * 2 ^ e) = r at h1
  have : den * (r * 2 ^ e) = den * 2 ^ e * r := by
    rw [Nat.mul_comm r, Nat.mul_assoc]
  rw [this]
  generalize den * 2 ^ e = x at h1 h2
  generalize x * r = y at h1
  omega

theorem le_round {den : Nat} (num : Nat) (hd : 0 < den) :
    2 ^ 24 * num ≤ 2 ^ 24 * (den * round num den) + num + 2 ^ 23 * den := by
  unfold round
  have h1 := le_roundDiv num (d := den * 2 ^ ((Nat.log2 (num / den) + 1) - 24)) (Nat.mul_pos hd (Nat.pow_pos (by decide)))
  have h2 := exp_le (num := num) hd
  generalize (Nat.log2 (num / den) + 1) - 24 = e at h1 h2
  dsimp only
  generalize roundDiv num (den * 2 ^ e) = r at h1
  have : den * (r * 2 ^ e) = den * 2 ^ e * r := by
    rw [Nat.mul_comm r, Nat.mul_assoc]
  rw [this]
  generalize den * 2 ^ e = x at h1 h2
  generalize x * r = y at h1
  omega

end Z5.Flt

namespace Z5
open Flt

theorem poolBatchSize_ok {w n : Nat} (hn : 0 < n) (h : w ≤ 2 ^ 32 * n) : ∃ bs, poolBatchSize w n = .ok bs ∧ 1 ≤ bs := by
  unfold poolBatchSize
  dsimp only
  have ha : 2 ^ 24 * (1 * ofNat w) ≤ _ := round_le (w * one) (by decide)
  have hb : 2 ^ 24 * (n * one) ≤ 2 ^ 24 * (1 * ofNat n) + _ + _ := le_round (n * one) (by decide)
  have hone : one = 713623846352979940529142984724747568191373312 := by decide +kernel
  generalize ofNat w = a at ha
  generalize ofNat n = b at hb
  rw [hone] at ha hb
  have hb0 : 0 < b := by omega
  have hc : 2 ^ 24 * (b * div a b) ≤ _ := round_le (a * one) hb0
  generalize div a b = c at hc
  have hd : 2 ^ 24 * (3 * one * div c (3 * one)) ≤ _ := round_le (c * one) (by decide +kernel)
  generalize div c (3 * one) = d at hd
  have hs : 2 ^ 24 * (1 * add d (one / 2)) ≤ _ := round_le (d + one / 2) (by decide)
  generalize add d (one / 2) = s at hs
  rw [hone] at hc hd hs
  have hc' : c ≤ 2 ^ 32 * 720760084816509739934434414571995043873287045 := by
    refine Classical.byContradiction fun hlt => ?_
    have := Nat.mul_le_mul_left b (show 2 ^ 32 * 720760084816509739934434414571995043873287045 ≤ c by omega)
    generalize b * c = y at this hc
    omega
  have hi : s / one < 2 ^ 31 := by
    rw [hone]
    omega
  unfold toInt
  rw [if_pos hi]
  exact ⟨max (s / one) 1, rfl, Nat.le_max_right _ _⟩

end Z5
