import Verif.Proofs.JsonWrite
import Verif.Proofs.Utf8

/-!
# Documents: bytes and values
-/

namespace Z5

namespace Dbl

theorem le_roundDiv (n d : Nat) : n / d ≤ roundDiv n d := by
  simp only [roundDiv]
  repeat' split
  all_goals omega

theorem roundDiv_le (n d : Nat) : roundDiv n d ≤ n / d + 1 := by
  simp only [roundDiv]
  repeat' split
  all_goals omega

theorem roundDiv_exact {q d : Nat} (h : 0 < d) : roundDiv (q * d) d = q := by
  simp only [roundDiv, Nat.mul_mod_left, Nat.mul_div_cancel _ h]
  rw [if_pos (by omega)]

theorem lt_excess (n : Nat) : n / 2 ^ excess n < 2 ^ 53 := by
  rw [Nat.div_lt_iff_lt_mul (Nat.two_pow_pos _), ← Nat.pow_add]
  by_cases h : n = 0
  · subst h; exact Nat.two_pow_pos _
  · refine Nat.lt_of_lt_of_le (Nat.lt_log2_self (n := n)) (Nat.pow_le_pow_right (by decide) ?_)
    unfold excess; omega

theorem excess_le {n : Nat} (h : 0 < excess n) : 2 ^ 52 ≤ n / 2 ^ excess n := by
  rw [Nat.le_div_iff_mul_le (Nat.two_pow_pos _), ← Nat.pow_add]
  have hn : n ≠ 0 := by rintro rfl; revert h; decide
  refine Nat.le_trans (Nat.pow_le_pow_right (by decide) ?_) (Nat.log2_self_le hn)
  unfold excess at *; omega

set_option exponentiation.threshold 2100 in
theorem maxUnits_lt : maxUnits < 2 ^ 2098 := by
  rw [maxUnits, show (2098 : Nat) = 53 + 2045 from rfl, Nat.pow_add]
  exact Nat.mul_lt_mul_of_pos_right (by decide) (Nat.two_pow_pos _)

/-- a rounded number has 53 bits -/
theorem rounded {n d : Nat} :
    let b := excess (n / d)
    let u := roundDiv n (d * 2 ^ b) * 2 ^ b
    u ≤ maxUnits → ∃ m j, m < 2 ^ 53 ∧ j ≤ 2045 ∧ u = m * 2 ^ j := by
  intro b u hu
  have h1 : n / (d * 2 ^ b) < 2 ^ 53 := by rw [← Nat.div_div_eq_div_mul]; exact lt_excess _
  have h2 := roundDiv_le n (d * 2 ^ b)
  have hb : b ≤ 2045 := by
    by_cases hb : b = 0
    · omega
    · have h3 : 2 ^ 52 ≤ n / (d * 2 ^ b) := by rw [← Nat.div_div_eq_div_mul]; exact excess_le (by omega)
      have h4 := Nat.le_trans h3 (le_roundDiv n (d * 2 ^ b))
      have h5 : 2 ^ 52 * 2 ^ b ≤ u := Nat.mul_le_mul_right _ h4
      rw [← Nat.pow_add] at h5
      have h6 := Nat.lt_of_le_of_lt (Nat.le_trans h5 hu) maxUnits_lt
      have := (Nat.pow_lt_pow_iff_right (by decide)).1 h6
      omega
  by_cases h : roundDiv n (d * 2 ^ b) < 2 ^ 53
  · exact ⟨_, b, h, hb, rfl⟩
  · have e : roundDiv n (d * 2 ^ b) = 2 ^ 53 := by omega
    have eu : u = 2 ^ (53 + b) := by
      show roundDiv n (d * 2 ^ b) * 2 ^ b = _
      rw [e, Nat.pow_add]
    have h6 : 2 ^ (53 + b) < 2 ^ 2098 := by rw [← eu]; exact Nat.lt_of_le_of_lt hu maxUnits_lt
    have := (Nat.pow_lt_pow_iff_right (by decide)).1 h6
    refine ⟨2 ^ 52, b + 1, by decide, by omega, ?_⟩
    rw [eu, ← Nat.pow_add]
    congr 1
    omega

theorem ofDecimal_representable (neg : Bool) (m : Nat) (e : Int) : (ofDecimal neg m e).Representable := by
  simp only [ofDecimal]
  split
  · rename_i h; exact rounded h
  · trivial

theorem ofDecimal_neg {neg neg' : Bool} {m u : Nat} {e : Int} (h : ofDecimal neg m e = .fin neg' u) : neg' = neg := by
  simp only [ofDecimal] at h
  split at h <;> cases h
  rfl

theorem excess_le_of {m j : Nat} (h : m < 2 ^ 53) : excess (m * 2 ^ j) ≤ j := by
  by_cases h0 : m = 0
  · subst h0; rw [Nat.zero_mul]; simp [excess]
  · have hne : m * 2 ^ j ≠ 0 := Nat.mul_ne_zero h0 (Nat.pos_iff_ne_zero.1 (Nat.two_pow_pos _))
    have hlt : m * 2 ^ j < 2 ^ (53 + j) := by
      rw [Nat.pow_add]; exact Nat.mul_lt_mul_of_pos_right h (Nat.two_pow_pos _)
    have h1 := (Nat.log2_lt hne).2 hlt
    unfold excess
    omega

set_option exponentiation.threshold 2100 in
/-- an exact decimal number is not changed -/
theorem ofDecimal_exact {neg : Bool} {m u : Nat} {e : Int} (hr : (fin neg u).Representable)
    (h : m * 10 ^ e.toNat * one = u * 10 ^ (-e).toNat) : ofDecimal neg m e = .fin neg u := by
  obtain ⟨a, j, ha, hj, rfl⟩ := hr
  simp only [ofDecimal, h]
  have hd : 0 < 10 ^ (-e).toNat := Nat.pow_pos (by decide)
  generalize 10 ^ (-e).toNat = d at *
  rw [Nat.mul_div_cancel _ hd]
  have hb := excess_le_of (j := j) ha
  generalize excess (a * 2 ^ j) = b at *
  obtain ⟨i, rfl⟩ := Nat.exists_eq_add_of_le hb
  have e1 : a * 2 ^ (b + i) * d = (a * 2 ^ i) * (d * 2 ^ b) := by
    rw [Nat.pow_add, Nat.mul_comm d, ← Nat.mul_assoc, ← Nat.mul_assoc, Nat.mul_assoc a, Nat.mul_comm (2 ^ b),
      ← Nat.mul_assoc]
  rw [e1, roundDiv_exact (Nat.mul_pos hd (Nat.two_pow_pos _))]
  have e2 : a * 2 ^ i * 2 ^ b = a * 2 ^ (b + i) := by
    rw [Nat.mul_assoc, ← Nat.pow_add, Nat.add_comm]
  rw [e2, if_pos]
  exact Nat.mul_le_mul (by omega) (Nat.pow_le_pow_right (by decide) hj)

open JsonText (dist)

/-- `roundDiv` goes to a nearest integer, and of two to the even one -/
theorem roundDiv_nearest {n d : Nat} (h : 0 < d) (t : Nat) :
    dist (roundDiv n d * d) n ≤ dist (t * d) n ∧
    (dist (t * d) n ≤ dist (roundDiv n d * d) n → t ≠ roundDiv n d →
      roundDiv n d % 2 = 0 ∧ (t = roundDiv n d + 1 ∨ t + 1 = roundDiv n d)) := by
  have e : n = n / d * d + n % d := by rw [Nat.mul_comm]; exact (Nat.div_add_mod n d).symm
  have hr : n % d < d := Nat.mod_lt _ h
  have e1 : (n / d + 1) * d = n / d * d + d := by rw [Nat.add_mul, Nat.one_mul]
  have hlt : t < n / d → t * d + d ≤ n / d * d := by
    intro ht
    have := Nat.mul_le_mul_right d (show t + 1 ≤ n / d by omega)
    rw [Nat.add_mul, Nat.one_mul] at this
    exact this
  have hgt : n / d + 1 < t → n / d * d + d + d ≤ t * d := by
    intro ht
    have := Nat.mul_le_mul_right d (show n / d + 1 + 1 ≤ t by omega)
    rw [Nat.add_mul, Nat.one_mul, e1] at this
    exact this
  have heq : t = n / d → t * d = n / d * d := fun h => by rw [h]
  have heq1 : t = n / d + 1 → t * d = n / d * d + d := fun h => by rw [h, e1]
  unfold dist roundDiv
  simp only
  generalize n / d = q at *
  generalize n % d = r at *
  generalize t * d = td at *
  rcases Nat.lt_trichotomy t q with ht | ht | ht
  · have := hlt ht
    split
    · exact ⟨by omega, by omega⟩
    · split
      · split
        · exact ⟨by omega, by omega⟩
        · rw [e1]; exact ⟨by omega, by omega⟩
      · rw [e1]; exact ⟨by omega, by omega⟩
  · have := heq ht
    split
    · exact ⟨by omega, by omega⟩
    · split
      · split
        · exact ⟨by omega, by omega⟩
        · rw [e1]; exact ⟨by omega, by omega⟩
      · rw [e1]; exact ⟨by omega, by omega⟩
  · by_cases ht1 : t = q + 1
    · have := heq1 ht1
      split
      · exact ⟨by omega, by omega⟩
      · split
        · split
          · exact ⟨by omega, by omega⟩
          · rw [e1]; exact ⟨by omega, by omega⟩
        · rw [e1]; exact ⟨by omega, by omega⟩
    · have := hgt (by omega)
      split
      · exact ⟨by omega, by omega⟩
      · split
        · split
          · exact ⟨by omega, by omega⟩
          · rw [e1]; exact ⟨by omega, by omega⟩
        · rw [e1]; exact ⟨by omega, by omega⟩

/-- numbers below the multiple in front of the number are farther away -/
theorem roundDiv_below {n d x : Nat} (h : 0 < d) (hx : x < n / d * d) : dist (roundDiv n d * d) n < dist x n := by
  have e : n = n / d * d + n % d := by rw [Nat.mul_comm]; exact (Nat.div_add_mod n d).symm
  have := (roundDiv_nearest (n := n) h (n / d)).1
  unfold dist at *
  omega

/-- rounding to 53 bits goes to a nearest number with 53 bits, and of two to the even one -/
theorem rounded_nearest {n d m j : Nat} (hd : 0 < d) (hm : m < 2 ^ 53) :
    let b := excess (n / d)
    let u := roundDiv n (d * 2 ^ b) * 2 ^ b
    dist (u * d) n ≤ dist (m * 2 ^ j * d) n ∧
    (dist (m * 2 ^ j * d) n ≤ dist (u * d) n → m * 2 ^ j ≠ u →
      ∃ t, u = 2 * t * 2 ^ b ∧ (m * 2 ^ j = (2 * t + 1) * 2 ^ b ∨ (m * 2 ^ j + 2 ^ b = 2 * t * 2 ^ b))) := by
  intro b u
  have hb2 : 0 < 2 ^ b := Nat.two_pow_pos _
  have hdb : 0 < d * 2 ^ b := Nat.mul_pos hd hb2
  have eu : u * d = roundDiv n (d * 2 ^ b) * (d * 2 ^ b) := by
    show roundDiv n (d * 2 ^ b) * 2 ^ b * d = _
    rw [Nat.mul_assoc, Nat.mul_comm (2 ^ b)]
  by_cases hj : b ≤ j
  · obtain ⟨i, rfl⟩ := Nat.exists_eq_add_of_le hj
    have em : m * 2 ^ (b + i) = m * 2 ^ i * 2 ^ b := by
      rw [Nat.pow_add, Nat.mul_assoc, Nat.mul_comm (2 ^ b)]
    have ev : m * 2 ^ (b + i) * d = m * 2 ^ i * (d * 2 ^ b) := by
      rw [em, Nat.mul_assoc, Nat.mul_comm (2 ^ b)]
    obtain ⟨h1, h2⟩ := roundDiv_nearest (n := n) hdb (m * 2 ^ i)
    rw [eu, ev]
    refine ⟨h1, fun h3 h4 => ?_⟩
    have h5 : m * 2 ^ i ≠ roundDiv n (d * 2 ^ b) := by
      intro h; apply h4; rw [em, h]
    obtain ⟨h6, h7⟩ := h2 h3 h5
    refine ⟨roundDiv n (d * 2 ^ b) / 2, ?_, ?_⟩
    · show roundDiv n (d * 2 ^ b) * 2 ^ b = _
      congr 1; omega
    · have e2 : 2 * (roundDiv n (d * 2 ^ b) / 2) = roundDiv n (d * 2 ^ b) := by omega
      rw [e2, em]
      rcases h7 with h7 | h7
      · exact .inl (by rw [h7])
      · refine .inr ?_
        rw [← h7, Nat.add_mul, Nat.one_mul]
  · have hbpos : 0 < b := by omega
    have h1 : 2 ^ 52 ≤ n / (d * 2 ^ b) := by rw [← Nat.div_div_eq_div_mul]; exact excess_le hbpos
    have h2 : m * 2 ^ j < 2 ^ 52 * 2 ^ b := by
      have h3 : m * 2 ^ j < 2 ^ (53 + j) := by
        rw [Nat.pow_add]; exact Nat.mul_lt_mul_of_pos_right hm (Nat.two_pow_pos _)
      rw [← Nat.pow_add]
      exact Nat.lt_of_lt_of_le h3 (Nat.pow_le_pow_right (by decide) (by omega))
    have h3 : m * 2 ^ j * d < n / (d * 2 ^ b) * (d * 2 ^ b) := by
      have h4 : m * 2 ^ j < n / (d * 2 ^ b) * 2 ^ b := Nat.lt_of_lt_of_le h2 (Nat.mul_le_mul_right _ h1)
      have h5 := Nat.mul_lt_mul_of_pos_right h4 hd
      rw [Nat.mul_assoc (n / (d * 2 ^ b)), Nat.mul_comm (2 ^ b)] at h5
      exact h5
    have h4 := roundDiv_below hdb h3
    rw [eu]
    exact ⟨Nat.le_of_lt h4, fun h5 => absurd h5 (by omega)⟩

theorem excess_mono {a b : Nat} (h : a ≤ b) : excess a ≤ excess b := by
  by_cases h0 : a = 0
  · subst h0; rw [show excess 0 = 0 by decide]; exact Nat.zero_le _
  · have h1 : Nat.log2 a ≤ Nat.log2 b :=
      (Nat.le_log2 (by omega)).2 (Nat.le_trans (Nat.log2_self_le h0) h)
    unfold excess; omega

set_option exponentiation.threshold 2100 in
theorem excess_pow (k : Nat) : excess (2 ^ (k + 52)) = k := by
  unfold excess
  rw [Nat.log2_two_pow]; omega

set_option exponentiation.threshold 2100 in
theorem half_units : maxUnits + 2 ^ 2044 < 2 ^ 2098 ∧ 2 ^ 2097 ≤ maxUnits + 2 ^ 2044 := by decide +kernel

set_option exponentiation.threshold 2100 in
/-- rounding to 53 bits exceeds the largest double from half of the last digit beyond it on -/
theorem rounded_overflow {n d : Nat} (hd : 0 < d) :
    let b := excess (n / d)
    maxUnits < roundDiv n (d * 2 ^ b) * 2 ^ b ↔ (maxUnits + 2 ^ 2044) * d ≤ n := by
  intro b
  have hb2 : 0 < 2 ^ b := Nat.two_pow_pos _
  obtain ⟨T1, T2⟩ := half_units
  by_cases hx : n / d < 2 ^ 2098
  · by_cases hb : b = 2045
    · -- the last binade
      have h1 : n / (d * 2 ^ b) < 2 ^ 53 := by rw [← Nat.div_div_eq_div_mul]; exact lt_excess _
      rw [hb] at h1 ⊢
      have hP : (2 : Nat) ^ 2045 = 2 * 2 ^ 2044 := by rw [Nat.pow_succ 2 2044, Nat.mul_comm]
      have hmax : maxUnits = (2 ^ 53 - 1) * (2 * 2 ^ 2044) := by rw [maxUnits, hP]
      have hPpos : 0 < (2 : Nat) ^ 2044 := Nat.two_pow_pos _
      rw [hmax]
      rw [hP] at h1 ⊢
      generalize (2 : Nat) ^ 2044 = P at *
      have e := (Nat.div_add_mod n (d * (2 * P))).symm
      have hr := Nat.mod_lt n (show 0 < d * (2 * P) from Nat.mul_pos hd (by omega))
      have e3 : ((2 ^ 53 - 1) * (2 * P) + P) * d = (2 ^ 53 - 1) * (d * (2 * P)) + P * d := by
        rw [Nat.add_mul, Nat.mul_assoc, Nat.mul_comm (2 * P) d]
      have e4 : d * (2 * P) = 2 * (P * d) := by
        rw [Nat.mul_comm d, Nat.mul_assoc]
      rw [e3]
      have hP2 : 0 < 2 * P := by omega
      generalize d * (2 * P) = D at *
      generalize P * d = C at *
      clear T1 T2 hmax hP e3 hx
      have key : 2 ^ 53 - 1 < roundDiv n D ↔ (2 ^ 53 - 1) * D + C ≤ n := by
        have hqn : D * (n / D) = (n / D) * D := Nat.mul_comm _ _
        rw [hqn] at e
        have hq0 : n / D < 2 ^ 53 - 1 → n / D * D + D ≤ (2 ^ 53 - 1) * D := by
          intro hq
          have := Nat.mul_le_mul_right D (show n / D + 1 ≤ 2 ^ 53 - 1 by omega)
          rw [Nat.add_mul, Nat.one_mul] at this
          exact this
        have hq1 : n / D = 2 ^ 53 - 1 → n / D * D = (2 ^ 53 - 1) * D := fun h => by rw [h]
        simp only [roundDiv]
        generalize n / D = q at *
        generalize n % D = r at *
        rcases Nat.lt_or_ge q (2 ^ 53 - 1) with hq | hq
        · have := hq0 hq
          split
          · omega
          · split
            · split <;> omega
            · omega
        · have hq : q = 2 ^ 53 - 1 := by omega
          have := hq1 hq
          split
          · omega
          · split
            · split <;> omega
            · omega
      rw [← key]
      exact ⟨fun h => Nat.lt_of_mul_lt_mul_right h, fun h => Nat.mul_lt_mul_of_pos_right h hP2⟩
    · have hble : b ≤ 2045 := by
        have h1 : excess (n / d) ≤ excess (2 ^ 2098 - 1) := excess_mono (by omega)
        have h2 : excess (2 ^ 2098 - 1) = 2045 := by decide +kernel
        omega
      constructor
      · intro h
        have h1 : n / (d * 2 ^ b) < 2 ^ 53 := by rw [← Nat.div_div_eq_div_mul]; exact lt_excess _
        have h2 := roundDiv_le n (d * 2 ^ b)
        have h3 : roundDiv n (d * 2 ^ b) * 2 ^ b ≤ 2 ^ 53 * 2 ^ 2044 :=
          Nat.mul_le_mul (by omega) (Nat.pow_le_pow_right (by decide) (by omega))
        have h4 : 2 ^ 53 * 2 ^ 2044 ≤ maxUnits := by decide +kernel
        exact absurd (Nat.lt_of_lt_of_le h (Nat.le_trans h3 h4)) (Nat.lt_irrefl _)
      · intro h
        have h1 : 2 ^ 2097 ≤ n / d := by
          rw [Nat.le_div_iff_mul_le hd]
          exact Nat.le_trans (Nat.mul_le_mul_right d T2) h
        have h2 : 2045 ≤ excess (n / d) := by
          have := excess_mono h1
          rw [excess_pow 2045] at this
          exact this
        exact absurd (Nat.le_antisymm hble h2) hb
  · have hx : 2 ^ 2098 ≤ n / d := by omega
    have hbge : 2046 ≤ b := by
      have := excess_mono hx
      rw [excess_pow 2046] at this
      exact this
    constructor
    · intro _
      exact Nat.le_trans (Nat.mul_le_mul_right d (Nat.le_of_lt T1)) ((Nat.le_div_iff_mul_le hd).1 hx)
    · intro _
      have h1 : 2 ^ 52 ≤ n / (d * 2 ^ b) := by rw [← Nat.div_div_eq_div_mul]; exact excess_le (show 0 < b by omega)
      have h2 := Nat.le_trans h1 (le_roundDiv n (d * 2 ^ b))
      have h3 : 2 ^ 52 * 2 ^ 2046 ≤ roundDiv n (d * 2 ^ b) * 2 ^ b :=
        Nat.mul_le_mul h2 (Nat.pow_le_pow_right (by decide) hbge)
      have h4 : maxUnits < 2 ^ 52 * 2 ^ 2046 := by decide +kernel
      exact Nat.lt_of_lt_of_le h4 h3

end Dbl

namespace JsonText

/-! ### what is received -/

mutual

theorem received_plain (frm to : Lib) : ∀ j, Plain j → received frm to j = some j
  | .null, _ => rfl
  | .bool _, _ => rfl
  | .str _, _ => rfl
  | .int i, h => by
    have h : -2 ^ 63 ≤ i ∧ i < 2 ^ 64 := h
    cases to with
    | py => rfl
    | cpp => simp only [received, receivedInt]; rw [if_pos h]
  | .float d, h => by
    obtain ⟨_, neg, u, rfl⟩ : d.Representable ∧ ∃ neg u, d = .fin neg u := h
    rfl
  | .arr l, h => by
    have h : PlainList l := h
    rw [received, receivedList_plain frm to l h]
  | .obj l, h => by
    have h : (l.map (·.1)).Nodup ∧ PlainMembers l := h
    rw [received, receivedMembers_plain frm to l h.2]

theorem receivedList_plain (frm to : Lib) : ∀ l, PlainList l → receivedList frm to l = some l
  | [], _ => rfl
  | v :: l, h => by
    have h : Plain v ∧ PlainList l := h
    rw [receivedList, received_plain frm to v h.1]
    simp only
    rw [receivedList_plain frm to l h.2]

theorem receivedMembers_plain (frm to : Lib) : ∀ l, PlainMembers l → receivedMembers frm to l = some l
  | [], _ => rfl
  | (k, v) :: l, h => by
    have h : Plain v ∧ PlainMembers l := h
    rw [receivedMembers, received_plain frm to v h.1]
    simp only
    rw [receivedMembers_plain frm to l h.2]

end

mutual

theorem plain_valid : ∀ j, Plain j → Valid j
  | .null, _ | .bool _, _ | .str _, _ | .int _, _ => trivial
  | .float d, h => by
    have h : d.Representable ∧ ∃ neg u, d = .fin neg u := h
    exact h.1
  | .arr l, h => plainList_valid l h
  | .obj l, h => by
    have h : (l.map (·.1)).Nodup ∧ PlainMembers l := h
    exact ⟨h.1, plainMembers_valid l h.2⟩

theorem plainList_valid : ∀ l, PlainList l → ValidList l
  | [], _ => trivial
  | v :: l, h => by
    have h : Plain v ∧ PlainList l := h
    exact ⟨plain_valid v h.1, plainList_valid l h.2⟩

theorem plainMembers_valid : ∀ l, PlainMembers l → ValidMembers l
  | [], _ => trivial
  | (k, v) :: l, h => by
    have h : Plain v ∧ PlainMembers l := h
    exact ⟨plain_valid v h.1, plainMembers_valid l h.2⟩

end

theorem receivedMembers_keys (frm to : Lib) : ∀ (l l' : List (String × Json)), receivedMembers frm to l = some l' →
    l'.map (·.1) = l.map (·.1)
  | [], l', h => by cases h; rfl
  | (k, v) :: l, l', h => by
    rw [receivedMembers] at h
    split at h
    · cases h
    · split at h
      · cases h
      · rename_i x hx
        cases h
        simp [receivedMembers_keys frm to l _ hx]

mutual

/-- what `nlohmann::json` holds after `parse` is never lost again -/
theorem plain_received (frm : Lib) : ∀ j j', Valid j → received frm .cpp j = some j' → Plain j'
  | .null, j', hv, h => by cases h; trivial
  | .bool _, j', hv, h => by cases h; trivial
  | .str _, j', hv, h => by cases h; trivial
  | .int i, j', hv, h => by
    simp only [received, receivedInt] at h
    split at h
    · rename_i hi; cases h; exact hi
    · have hr := Dbl.ofDecimal_representable (decide (i < 0)) i.natAbs 0
      cases hd : Dbl.ofDecimal (decide (i < 0)) i.natAbs 0 with
      | nan => rw [hd] at h; cases h
      | inf neg => rw [hd] at h; cases h
      | fin neg u =>
        rw [hd] at h hr
        cases h
        exact ⟨hr, _, _, rfl⟩
  | .float d, j', hv, h => by
    simp only [received] at h
    cases d with
    | fin neg u => cases h; exact ⟨hv, _, _, rfl⟩
    | nan => cases frm <;> cases h; trivial
    | inf neg => cases frm <;> cases h; trivial
  | .arr l, j', hv, h => by
    rw [received] at h
    split at h
    · cases h
    · rename_i l' hl; cases h; exact plainList_received frm l l' hv hl
  | .obj l, j', hv, h => by
    have hv : (l.map (·.1)).Nodup ∧ ValidMembers l := hv
    rw [received] at h
    split at h
    · cases h
    · rename_i l' hl
      cases h
      refine ⟨?_, plainMembers_received frm l l' hv.2 hl⟩
      rw [receivedMembers_keys frm .cpp l l' hl]; exact hv.1

theorem plainList_received (frm : Lib) : ∀ l l', ValidList l → receivedList frm .cpp l = some l' → PlainList l'
  | [], l', hv, h => by cases h; trivial
  | v :: l, l', hv, h => by
    have hv : Valid v ∧ ValidList l := hv
    rw [receivedList] at h
    split at h
    · cases h
    · rename_i v' hv'
      split at h
      · cases h
      · rename_i l' hl
        cases h
        exact ⟨plain_received frm v v' hv.1 hv', plainList_received frm l l' hv.2 hl⟩

theorem plainMembers_received (frm : Lib) : ∀ l l', ValidMembers l → receivedMembers frm .cpp l = some l' → PlainMembers l'
  | [], l', hv, h => by cases h; trivial
  | (k, v) :: l, l', hv, h => by
    have hv : Valid v ∧ ValidMembers l := hv
    rw [receivedMembers] at h
    split at h
    · cases h
    · rename_i v' hv'
      split at h
      · cases h
      · rename_i l' hl
        cases h
        exact ⟨plain_received frm v v' hv.1 hv', plainMembers_received frm l l' hv.2 hl⟩

end

/-! ### the three readers -/

theorem compact_ok : compact.Ok := ⟨(by intro c hc; cases hc), (by intro c hc; cases hc)⟩

theorem pretty_ok : pretty.Ok := by
  refine ⟨(by intro c hc; cases hc), ?_⟩
  intro c hc
  rcases List.mem_singleton.1 hc with rfl
  decide

theorem dumps_ok : dumps.Ok := by
  refine ⟨?_, ?_⟩ <;>
  · intro c hc
    rcases List.mem_singleton.1 hc with rfl
    decide

theorem skipBom_low {c : Char} {r : List Char} (h : c.toNat < 128) : skipBom (c :: r) = c :: r := by
  rw [skipBom, if_neg (by omega)]

theorem skipBom_text {st : Style} {dg : Digits} (hd : dg.Lawful) {j : Json} (hv : Valid j) (s : List Char) :
    skipBom (text st dg j ++ s) = text st dg j ++ s := by
  obtain ⟨c, r, e, _, _, _, hc⟩ := write_head (st := st) hd (k := 0) hv
  rw [text, e]
  exact skipBom_low hc

theorem cppRead_text {st : Style} {dg : Digits} (hs : st.Ok) (hd : dg.Lawful) {j : Json} (hv : Valid j) {s : List Char}
    (hr : Stops s) : cppRead (Utf8.encode (text st dg j ++ s)) = received st.lib .cpp j := by
  have hl := Utf8.length_encode (text st dg j ++ s)
  rw [cppRead, Utf8.decode_encode _ _ hl]
  simp only
  rw [skipBom_text hd hv, text, parse_write hs hd j _ 0 s hv hr]
  · cases received st.lib .cpp j <;> rfl
  · rw [List.length_append] at hl
    rw [text] at hl; omega

theorem cppParse_text {st : Style} {dg : Digits} (hs : st.Ok) (hd : dg.Lawful) {j : Json} (hv : Valid j) :
    cppParse (Utf8.encode (text st dg j)) = received st.lib .cpp j := by
  have hl := Utf8.length_encode (text st dg j)
  have hb := skipBom_text (st := st) hd hv []
  rw [List.append_nil] at hb
  rw [cppParse, Utf8.decode_encode _ _ hl]
  simp only
  rw [hb]
  have hp := parse_write (lib := .cpp) hs hd j ((Utf8.encode (text st dg j)).length + 2) 0 [] hv trivial
    (by rw [text] at hl; rw [text]; omega)
  rw [List.append_nil] at hp
  rw [text] at hp ⊢
  rw [hp]
  cases received st.lib .cpp j <;> rfl

theorem pyLoads_text {st : Style} {dg : Digits} (hs : st.Ok) (hd : dg.Lawful) {j : Json} (hv : Valid j) :
    pyLoads (text st dg j) = received st.lib .py j := by
  have hp := parse_write (lib := .py) hs hd j ((text st dg j).length + 2) 0 [] hv trivial (by rw [text]; omega)
  rw [List.append_nil] at hp
  rw [pyLoads]
  rw [text] at hp ⊢
  rw [hp]
  cases received st.lib .py j <;> rfl

/-! ### torn documents -/

theorem parseElems_arr {lib : Lib} : ∀ {n : Nat} {acc t j r}, parseElems lib n acc t = some (j, r) → ¬ IsNumber j := by
  intro n
  induction n with
  | zero => intro acc t j r h; simp [parseElems] at h
  | succ n ih =>
    intro acc t j r h
    simp only [parseElems] at h
    split at h
    · cases h
    · split at h
      · exact ih h
      · split at h
        · cases h; exact id
        · cases h

theorem parseMembers_obj {lib : Lib} : ∀ {n : Nat} {acc t j r}, parseMembers lib n acc t = some (j, r) → ¬ IsNumber j := by
  intro n
  induction n with
  | zero => intro acc t j r h; simp [parseMembers] at h
  | succ n ih =>
    intro acc t j r h
    simp only [parseMembers] at h
    split at h
    · cases h
    · split at h
      · cases h
      · split at h
        · cases h
        · split at h
          · cases h
          · split at h
            · exact ih h
            · split at h
              · cases h; exact id
              · cases h

theorem not_number {lib : Lib} {n : Nat} {c : Char} {t r : List Char} {j : Json} (hc : c = '{' ∨ c = '[' ∨ c = '"')
    (h : parseValue lib n (c :: t) = some (j, r)) : ¬ IsNumber j := by
  cases n with
  | zero => simp [parseValue] at h
  | succ n =>
    have hw : isWs c = false := by rcases hc with rfl | rfl | rfl <;> decide
    rw [parseValue, skipWs, hw] at h
    simp only [Bool.false_eq_true, if_false] at h
    split at h
    · split at h
      · cases h; exact id
      · exact parseMembers_obj h
    · split at h
      · split at h
        · cases h; exact id
        · exact parseElems_arr h
      · split at h
        · split at h
          · cases h
          · cases h; exact id
        · rename_i h1 h2 h3
          rcases hc with hc | hc | hc
          · exact absurd hc h1
          · exact absurd hc h2
          · exact absurd hc h3

theorem closed_head {st : Style} {dg : Digits} {k : Nat} {j : Json} (h : Closed j) :
    ∃ c r, write st dg k j = c :: r ∧ (c = '{' ∨ c = '[' ∨ c = '"') ∧ c.toNat < 128 := by
  cases j with
  | null => cases h
  | bool b => cases h
  | int i => cases h
  | float d => cases h
  | str s => exact ⟨_, _, rfl, by decide⟩
  | arr l => simp only [write]; split <;> exact ⟨_, _, rfl, by decide⟩
  | obj l => simp only [write]; split <;> exact ⟨_, _, rfl, by decide⟩

/-- a part of a text is no text -/
theorem parse_torn {st : Style} {dg : Digits} (hs : st.Ok) (hd : dg.Lawful) {j : Json} (hv : Valid j) (hc : Closed j) {b s : Bytes}
    (hne : s ≠ []) (h : b ++ s = Utf8.encode (text st dg j)) (n : Nat) :
    parseValue .cpp n (skipBom (Utf8.decode b.length b).1) = none := by
  obtain ⟨u, hu, hu'⟩ := Utf8.decode_prefix b.length b s _ h
  generalize Utf8.decode b.length b = d at *
  obtain ⟨t, q⟩ := d
  simp only at hu hu' ⊢
  have hune : u ≠ [] := by
    rintro rfl
    have : q ++ s = [] := hu'
    rw [List.append_eq_nil_iff] at this
    exact hne this.2
  cases t with
  | nil => cases n <;> simp [skipBom, parseValue, skipWs]
  | cons c t =>
    obtain ⟨c', r', e, hcc, hlow⟩ := closed_head (st := st) (dg := dg) (k := 0) hc
    rw [text] at hu
    have hcc' : c' = c := by rw [e] at hu; simpa using congrArg List.head? hu
    subst hcc'
    rw [skipBom_low hlow]
    cases hp : parseValue .cpp n (c' :: t) with
    | none => rfl
    | some x =>
      obtain ⟨j', r⟩ := x
      have h1 := (parse_append (n + (write st dg 0 j).length + 1) n (by omega)).1 _ u r j' (.inr (not_number hcc hp)) hp
      rw [← hu] at h1
      have h2 := parse_write (lib := .cpp) hs hd j (n + (write st dg 0 j).length + 1) 0 [] hv trivial (by omega)
      rw [List.append_nil] at h2
      rw [h1] at h2
      cases hrec : received st.lib .cpp j with
      | none => rw [hrec] at h2; cases h2
      | some y =>
        rw [hrec] at h2
        simp only [Option.map, Option.some.injEq, Prod.mk.injEq, List.append_eq_nil_iff] at h2
        exact absurd h2.2.2 hune

end JsonText

end Z5
