import Verif.Spec.PyScalar
import Verif.Proofs.Metadata

/-!
# Lemmas for the conversion of assigned numbers
-/

namespace Z5

/-- `roundAt` goes to a nearest multiple, and what is below the multiple before the number is farther away. -/
theorem roundAt_nearest {n b x : Nat} (hx : (∃ t, x = t * 2 ^ b) ∨ x < n / 2 ^ b * 2 ^ b) :
    natDist n (Dbl.roundAt n b) ≤ natDist n x := by
  have hB : 0 < 2 ^ b := Nat.pow_pos (by decide)
  have hdm := Nat.div_add_mod n (2 ^ b)
  have hmod := Nat.mod_lt n hB
  unfold Dbl.roundAt
  generalize hq : n / 2 ^ b = q at *
  generalize hr : n % 2 ^ b = r at *
  dsimp only
  generalize hu : 2 ^ b = u at *
  have hc : u * q = q * u := Nat.mul_comm _ _
  have hs : (q + 1) * u = q * u + u := Nat.succ_mul _ _
  have hdist : ∀ w, (w = q * u ∧ 2 * r ≤ u ∨ w = q * u + u ∧ u ≤ 2 * r) → natDist n w ≤ natDist n x := by
    intro w hw
    rcases hx with ⟨t, rfl⟩ | hx
    · rcases Nat.lt_trichotomy t q with ht | ht | ht
      · have : (t + 1) * u ≤ q * u := Nat.mul_le_mul_right _ ht
        rw [Nat.succ_mul] at this
        unfold natDist
        rcases hw with ⟨rfl, _⟩ | ⟨rfl, _⟩ <;> omega
      · subst ht
        unfold natDist
        rcases hw with ⟨rfl, _⟩ | ⟨rfl, _⟩ <;> omega
      · have : (q + 1) * u ≤ t * u := Nat.mul_le_mul_right _ ht
        unfold natDist
        rcases hw with ⟨rfl, _⟩ | ⟨rfl, _⟩ <;> omega
    · unfold natDist
      rcases hw with ⟨rfl, _⟩ | ⟨rfl, _⟩ <;> omega
  split
  · exact hdist _ (.inl ⟨rfl, by omega⟩)
  · split
    · split
      · exact hdist _ (.inl ⟨rfl, by omega⟩)
      · rw [hs]
        exact hdist _ (.inr ⟨rfl, by omega⟩)
    · rw [hs]
      exact hdist _ (.inr ⟨rfl, by omega⟩)

theorem roundAt_cases (n b : Nat) : Dbl.roundAt n b = n / 2 ^ b * 2 ^ b ∨
    Dbl.roundAt n b = (n / 2 ^ b + 1) * 2 ^ b ∧ n % 2 ^ b ≠ 0 := by
  have hB : 0 < 2 ^ b := Nat.pow_pos (by decide)
  unfold Dbl.roundAt
  dsimp only
  split
  · exact .inl rfl
  · have : n % 2 ^ b ≠ 0 := by omega
    split
    · split
      · exact .inl rfl
      · exact .inr ⟨rfl, this⟩
    · exact .inr ⟨rfl, this⟩

theorem floatExp_ge (u : Nat) : 925 ≤ Dbl.floatExp u ∧ Nat.log2 u + 1 ≤ Dbl.floatExp u + 24 ∧
    (925 < Dbl.floatExp u → Nat.log2 u + 1 = Dbl.floatExp u + 24) := by
  unfold Dbl.floatExp
  omega

theorem lt_pow_floatExp (u : Nat) : u / 2 ^ Dbl.floatExp u < 2 ^ 24 := by
  rw [Nat.div_lt_iff_lt_mul (Nat.pow_pos (by decide)), ← Nat.pow_add]
  by_cases h0 : u = 0
  · subst h0; exact Nat.pow_pos (by decide)
  · refine Nat.lt_of_lt_of_le (Nat.lt_log2_self (n := u)) (Nat.pow_le_pow_right (by decide) ?_)
    have := (floatExp_ge u).2.1
    omega

set_option exponentiation.threshold 2000 in
theorem floatExp_le {u : Nat} (h : u ≤ Dbl.maxFloat) : Dbl.floatExp u ≤ 1178 := by
  by_cases h0 : u = 0
  · subst h0
    decide +kernel
  · have h1 : u < 2 ^ (24 + 1178) := by
      refine Nat.lt_of_le_of_lt h ?_
      unfold Dbl.maxFloat
      rw [Nat.pow_add]
      exact Nat.mul_lt_mul_of_pos_right (by decide) (Nat.pow_pos (by decide))
    have := (Nat.log2_lt h0).2 h1
    unfold Dbl.floatExp
    omega

set_option exponentiation.threshold 2000 in
theorem isFloat_round {u : Nat} (h : u ≤ Dbl.maxFloat) : Dbl.IsFloat (Dbl.roundAt u (Dbl.floatExp u)) := by
  have hq := lt_pow_floatExp u
  have hge := (floatExp_ge u).1
  have hle := floatExp_le h
  rcases roundAt_cases u (Dbl.floatExp u) with e | ⟨e, hr⟩
  · exact ⟨_, _, hq, hge, hle, e⟩
  · by_cases hq' : u / 2 ^ Dbl.floatExp u + 1 < 2 ^ 24
    · exact ⟨_, _, hq', hge, hle, e⟩
    · have hq'' : u / 2 ^ Dbl.floatExp u + 1 = 2 ^ 23 * 2 := by omega
      by_cases hb : Dbl.floatExp u < 1178
      · refine ⟨2 ^ 23, Dbl.floatExp u + 1, by decide, by omega, by omega, ?_⟩
        rw [e, hq'', Nat.mul_assoc, ← Nat.pow_succ']
      · have hb : Dbl.floatExp u = 1178 := by omega
        exfalso
        have hdm := Nat.div_add_mod u (2 ^ Dbl.floatExp u)
        rw [hb] at hr hdm hq''
        have h3 : u / 2 ^ 1178 = 2 ^ 24 - 1 := by omega
        rw [h3, Nat.mul_comm] at hdm
        unfold Dbl.maxFloat at h
        generalize (2 ^ 24 - 1) * 2 ^ 1178 = k at *
        omega

theorem float_nearest (u : Nat) {x : Nat} (hx : Dbl.IsFloat x) :
    natDist u (Dbl.roundAt u (Dbl.floatExp u)) ≤ natDist u x := by
  obtain ⟨m, j, hm, hj, _, rfl⟩ := hx
  obtain ⟨h1, _, h3⟩ := floatExp_ge u
  generalize Dbl.floatExp u = b at *
  by_cases hb : b ≤ j
  · refine roundAt_nearest (.inl ⟨m * 2 ^ (j - b), ?_⟩)
    rw [Nat.mul_assoc, ← Nat.pow_add, Nat.sub_add_cancel hb]
  · refine roundAt_nearest (.inr ?_)
    have h3 := h3 (by omega)
    have h0 : u ≠ 0 := by
      rintro rfl
      rw [show Nat.log2 0 = 0 by decide] at h3
      omega
    have h4 : 2 ^ (b + 23) ≤ u := by
      rw [show b + 23 = Nat.log2 u by omega]
      exact Nat.log2_self_le h0
    have h5 : 2 ^ 23 ≤ u / 2 ^ b := by
      refine (Nat.le_div_iff_mul_le (Nat.pow_pos (by decide))).2 ?_
      rw [← Nat.pow_add, Nat.add_comm]
      exact h4
    calc m * 2 ^ j < 2 ^ 24 * 2 ^ j := Nat.mul_lt_mul_of_pos_right hm (Nat.pow_pos (by decide))
      _ = 2 ^ 23 * 2 ^ (j + 1) := by rw [← Nat.pow_add, ← Nat.pow_add]; congr 1; omega
      _ ≤ 2 ^ 23 * 2 ^ b := Nat.mul_le_mul_left _ (Nat.pow_le_pow_right (by decide) (by omega))
      _ ≤ u / 2 ^ b * 2 ^ b := Nat.mul_le_mul_right _ h5

theorem natDist_self (a : Nat) : natDist a a = 0 := by unfold natDist; omega

set_option exponentiation.threshold 2000 in
theorem isFloat_le {u : Nat} (h : Dbl.IsFloat u) : u ≤ Dbl.maxFloat := by
  obtain ⟨m, j, hm, _, hj, rfl⟩ := h
  unfold Dbl.maxFloat
  exact Nat.mul_le_mul (by omega) (Nat.pow_le_pow_right (by decide) hj)

theorem round_isFloat {u : Nat} (h : Dbl.IsFloat u) : Dbl.roundAt u (Dbl.floatExp u) = u := by
  have := float_nearest u h
  rw [natDist_self] at this
  unfold natDist at this
  omega

theorem wrapInt_spec {lo hi : Int} (h : lo < hi) (i : Int) :
    lo ≤ wrapInt lo hi i ∧ wrapInt lo hi i < hi ∧ ∃ k, wrapInt lo hi i = i + k * (hi - lo) := by
  unfold wrapInt
  have h1 := Int.emod_nonneg (i - lo) (show hi - lo ≠ 0 by omega)
  have h2 := Int.emod_lt_of_pos (i - lo) (show 0 < hi - lo by omega)
  refine ⟨by omega, by omega, -((i - lo) / (hi - lo)), ?_⟩
  have := Int.mul_ediv_add_emod (i - lo) (hi - lo)
  rw [Int.neg_mul, Int.mul_comm ((i - lo) / (hi - lo))]
  omega

theorem wrapInt_id {lo hi i : Int} (h : lo ≤ i ∧ i < hi) : wrapInt lo hi i = i := by
  unfold wrapInt
  rw [Int.emod_eq_of_lt (by omega) (by omega)]
  omega

/-- The types with a name in N5 are those that Python gets. -/
theorem pyWriteScalar_eq {α : Type} (N : NbCast) {dt : Datatype} (write : List Nat → List Nat → CValue → Res (List α))
    (off shape : List Nat) (v : PyNumber) (h : dt ≠ .complex64 ∧ dt ≠ .complex128 ∧ dt ≠ .complex256) :
    pyWriteScalar N dt write off shape v = (do write off shape (← castScalar N v dt)) := by
  cases dt <;> first | rfl | exact absurd rfl h.1 | exact absurd rfl h.2.1 | exact absurd rfl h.2.2

theorem castScalar_int {N : NbCast} {dt : Datatype} {lo hi : Int} (h : dt.range = some (lo, hi)) (v : PyNumber) :
    castScalar N v dt = castToInt N lo hi (if lo < 0 then -2 ^ 63 else 0) (if lo < 0 then 2 ^ 63 else 2 ^ 64) v := by
  cases dt <;> cases h <;> rfl

theorem range_real {dt : Datatype} {lo hi : Int} (h : dt.range = some (lo, hi)) :
    dt ≠ .complex64 ∧ dt ≠ .complex128 ∧ dt ≠ .complex256 := by
  cases dt <;> cases h <;> exact ⟨by decide, by decide, by decide⟩

theorem range_bounds {dt : Datatype} {lo hi : Int} (h : dt.range = some (lo, hi)) :
    lo < hi ∧ (if lo < 0 then -2 ^ 63 else 0) ≤ lo ∧ hi ≤ (if lo < 0 then (2 : Int) ^ 63 else 2 ^ 64) := by
  cases dt <;> cases h <;> decide

theorem dist_eq (a b : Nat) : dist a b = natDist a b := rfl

/-- The rounded number has 53 significant bits. -/
theorem roundNat_bits (n : Nat) : ∃ m j, m < 2 ^ 53 ∧ Dbl.roundNat n = m * 2 ^ j := by
  unfold Dbl.roundNat
  have hq : n / 2 ^ Dbl.excess n < 2 ^ 53 := by
    rw [Nat.div_lt_iff_lt_mul (Nat.pow_pos (by decide)), ← Nat.pow_add]
    by_cases h0 : n = 0
    · subst h0; exact Nat.pow_pos (by decide)
    · refine Nat.lt_of_lt_of_le (Nat.lt_log2_self (n := n)) (Nat.pow_le_pow_right (by decide) ?_)
      unfold Dbl.excess
      omega
  rcases roundAt_cases n (Dbl.excess n) with e | ⟨e, _⟩
  · exact ⟨_, _, hq, e⟩
  · by_cases hq' : n / 2 ^ Dbl.excess n + 1 < 2 ^ 53
    · exact ⟨_, _, hq', e⟩
    · refine ⟨2 ^ 52, Dbl.excess n + 1, by decide, ?_⟩
      rw [e, show n / 2 ^ Dbl.excess n + 1 = 2 ^ 52 * 2 by omega, Nat.mul_assoc, ← Nat.pow_succ']

theorem roundNat_ge {n k : Nat} (h : 2 ^ k ≤ n) : 2 ^ k ≤ Dbl.roundNat n := by
  have := (roundNat_nearest n 1 k (by decide)).1
  unfold natDist at this
  omega

set_option exponentiation.threshold 3000 in
theorem roundNat_le_max {n : Nat} (h : n * Dbl.one ≤ Dbl.maxDouble) : Dbl.roundNat n * Dbl.one ≤ Dbl.maxDouble := by
  have e : Dbl.maxDouble = (2 ^ 53 - 1) * 2 ^ 971 * Dbl.one := by
    show (2 ^ 53 - 1) * 2 ^ 2045 = (2 ^ 53 - 1) * 2 ^ 971 * 2 ^ 1074
    rw [Nat.mul_assoc, ← Nat.pow_add]
  rw [e] at h ⊢
  have h' := Nat.le_of_mul_le_mul_right h one_pos
  refine Nat.mul_le_mul_right _ ?_
  have := (roundNat_nearest n (2 ^ 53 - 1) 971 (by decide)).1
  unfold natDist at this
  generalize (2 ^ 53 - 1) * 2 ^ 971 = k at *
  omega

set_option exponentiation.threshold 3000 in
theorem maxFloat_le : Dbl.maxFloat ≤ Dbl.maxDouble :=
  Nat.mul_le_mul (by decide) (Nat.pow_le_pow_right (by decide) (by decide))

end Z5
