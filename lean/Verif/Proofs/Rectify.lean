import Verif.Spec.Index

/-!
# Lemmas on `rectify_shape`
-/

namespace Z5
open Spec

abbrev singles (k : Nat) : List Nat := List.replicate k 1

theorem singles_succ (k : Nat) : singles (k + 1) = 1 :: singles k := rfl
theorem singles_zero : singles 0 = [] := rfl

theorem stripFront_eq : ∀ (s : List Nat), ∃ a, s = singles a ++ stripFront s
  | [] => ⟨0, rfl⟩
  | [n] => ⟨0, rfl⟩
  | n :: m :: s => by
    unfold stripFront
    split
    · rename_i h
      obtain ⟨a, ha⟩ := stripFront_eq (m :: s)
      refine ⟨a + 1, ?_⟩
      rw [singles_succ, List.cons_append, ← ha, h]
    · exact ⟨0, rfl⟩

theorem stripFront_ne_nil : ∀ {s : List Nat}, s ≠ [] → stripFront s ≠ []
  | [], h => absurd rfl h
  | [n], _ => (fun e => by cases e)
  | n :: m :: s, _ => by
    unfold stripFront
    split
    · exact stripFront_ne_nil (fun e => by cases e)
    · exact fun e => by cases e

theorem stripFront_core {c : Nat} {t : List Nat} (hc : c ≠ 1) : ∀ (a : Nat), stripFront (singles a ++ c :: t) = c :: t
  | 0 => by
    cases t with
    | nil => rfl
    | cons d t => exact if_neg hc
  | a + 1 => by
    have ih := stripFront_core (t := t) hc a
    rw [singles_succ, List.cons_append]
    cases h : singles a ++ c :: t with
    | nil => simp at h
    | cons x l =>
      unfold stripFront
      rw [if_pos rfl, ← h, ih]

theorem stripOnes_eq (s : List Nat) : ∃ a b, s = singles a ++ stripOnes s ++ singles b := by
  obtain ⟨a, ha⟩ := stripFront_eq s
  obtain ⟨b, hb⟩ := stripFront_eq (stripFront s).reverse
  refine ⟨a, b, ?_⟩
  have := congrArg List.reverse hb
  rw [List.reverse_reverse, List.reverse_append, List.reverse_replicate] at this
  conv => lhs; rw [ha, this, ← List.append_assoc]
  rfl

theorem stripOnes_ne_nil {s : List Nat} (h : s ≠ []) : stripOnes s ≠ [] := by
  intro e
  have e := congrArg List.reverse e
  unfold stripOnes at e
  rw [List.reverse_reverse] at e
  refine stripFront_ne_nil (s := (stripFront s).reverse) ?_ e
  intro e
  exact stripFront_ne_nil h (List.reverse_eq_nil_iff.1 e)

theorem stripOnes_core {core : List Nat} (h1 : core ≠ []) (h2 : core.head? ≠ some 1)
    (h3 : core.getLast? ≠ some 1) (a b : Nat) : stripOnes (singles a ++ core ++ singles b) = core := by
  unfold stripOnes
  have e1 : stripFront (singles a ++ core ++ singles b) = core ++ singles b := by
    cases core with
    | nil => exact absurd rfl h1
    | cons c t =>
      rw [List.append_assoc, List.cons_append]
      exact stripFront_core (fun e => h2 (by simp [e])) a
  rw [e1, List.reverse_append, List.reverse_replicate]
  rw [← List.head?_reverse] at h3
  have h4 : core.reverse ≠ [] := fun e => h1 (List.reverse_eq_nil_iff.1 e)
  cases h : core.reverse with
  | nil => exact absurd h h4
  | cons c t =>
    rw [h] at h3
    rw [stripFront_core (fun e => h3 (by simp [e])), ← h, List.reverse_reverse]

/-- the windows, by recursion over the list -/
def windows (w : Nat) : List Nat → List (List Nat)
  | [] => if w ≤ 0 then [[]] else []
  | x :: l => if w ≤ (x :: l).length then (x :: l).take w :: windows w l else []

theorem windows_eq (w : Nat) (l : List Nat) : slidingWindow l w = windows w l := by
  induction l with
  | nil =>
    unfold slidingWindow windows
    cases w with
    | zero => rfl
    | succ w => simp
  | cons x l ih =>
    unfold slidingWindow windows
    by_cases h : w ≤ (x :: l).length
    · rw [if_neg (by omega), if_pos h, List.range_succ_eq_map, List.map_cons]
      congr 1
      rw [← ih]
      unfold slidingWindow
      rw [List.map_map]
      by_cases h' : w > l.length
      · rw [if_pos h', show (x :: l).length - w = 0 from by simp; omega]
        rfl
      · rw [if_neg h', show (x :: l).length - w = l.length - w + 1 from by simp; omega]
        rfl
    · rw [if_pos (by omega), if_neg h]

theorem windowLoop_trailing {imp : List Nat} : ∀ {ws : List (List Nat)},
    windowLoop imp ws false = true ↔ ∀ w ∈ ws, w ≠ imp ∧ w.getLast? = some 1
  | [] => by simp [windowLoop]
  | w :: ws => by
    unfold windowLoop
    have ih := windowLoop_trailing (imp := imp) (ws := ws)
    simp only [List.mem_cons, forall_eq_or_imp, Bool.false_eq_true, if_false]
    by_cases h1 : w = imp
    · simp [h1]
    · rw [if_neg h1]
      by_cases h2 : w.getLast? = some 1
      · simp [h1, h2, ih]
      · simp [h1, h2]

/-- all windows of `l` end in a one: all of `l` from the end of the first window on is singles -/
theorem windows_last {w : Nat} (hw : 0 < w) : ∀ {l : List Nat},
    (∀ v ∈ windows w l, v.getLast? = some 1) ↔ ∀ x ∈ l.drop (w - 1), x = 1
  | [] => by
    have : ¬ w ≤ 0 := by omega
    simp [windows, this]
  | y :: l => by
    have ih := windows_last hw (l := l)
    unfold windows
    by_cases h : w ≤ (y :: l).length
    · rw [if_pos h]
      simp only [List.mem_cons, forall_eq_or_imp, ih]
      have e1 : ((y :: l).take w).getLast? = (y :: l)[w - 1]? := by
        rw [List.getLast?_eq_getElem?, List.length_take, Nat.min_eq_left h, List.getElem?_take_of_lt (by omega)]
      rw [e1]
      have hlt : w - 1 < (y :: l).length := by omega
      rw [List.drop_eq_getElem_cons hlt, List.getElem?_eq_getElem hlt]
      simp only [List.mem_cons, forall_eq_or_imp, Option.some.injEq, List.drop_succ_cons]
    · rw [if_neg h]
      have : (y :: l).drop (w - 1) = [] := List.drop_eq_nil_of_le (by omega)
      simp [this]

theorem eq_ones {l : List Nat} (h : ∀ x ∈ l, x = 1) : l = singles l.length := List.eq_replicate_iff.2 ⟨rfl, h⟩

/-- What the loop accepts -/
theorem windowLoop_sound {imp : List Nat} (hi : imp ≠ []) : ∀ {l : List Nat},
    windowLoop imp (windows imp.length l) true = true →
    (∃ k m, l = singles k ++ imp ++ singles m) ∨ ∀ x ∈ l.take (l.length + 1 - imp.length), x = 1
  | [], h => .inr (by simp)
  | y :: l, h => by
    have hw : 0 < imp.length := List.length_pos_iff.2 hi
    unfold windows at h
    by_cases hl : imp.length ≤ (y :: l).length
    · rw [if_pos hl] at h
      unfold windowLoop at h
      by_cases h1 : (y :: l).take imp.length = imp
      · rw [if_pos h1, if_pos rfl] at h
        left
        have h := windowLoop_trailing.1 h
        have h := (windows_last hw).1 fun v hv => (h v hv).2
        refine ⟨0, (l.drop (imp.length - 1)).length, ?_⟩
        rw [← eq_ones h]
        have e : l.drop (imp.length - 1) = (y :: l).drop imp.length := by
          obtain ⟨n, hn⟩ := Nat.exists_eq_succ_of_ne_zero (Nat.ne_of_gt hw)
          rw [hn]
          rfl
        rw [e]
        conv => lhs; rw [← List.take_append_drop imp.length (y :: l), h1]
        rfl
      · rw [if_neg h1, if_pos rfl] at h
        split at h
        · cases h
        · rename_i h2
          have hy : y = 1 := by
            obtain ⟨n, hn⟩ := Nat.exists_eq_succ_of_ne_zero (Nat.ne_of_gt hw)
            rw [hn, List.take_succ_cons] at h2
            simpa using h2
          rcases windowLoop_sound hi h with ⟨k, m, h3⟩ | h3
          · refine .inl ⟨k + 1, m, ?_⟩
            rw [h3, hy, singles_succ]
            rfl
          · right
            have e : (y :: l).length + 1 - imp.length = (l.length + 1 - imp.length) + 1 := by
              simp only [List.length_cons] at hl ⊢
              omega
            rw [e, List.take_succ_cons]
            simp only [List.mem_cons, forall_eq_or_imp]
            exact ⟨hy, h3⟩
    · right
      rw [show (y :: l).length + 1 - imp.length = 0 from by omega]
      simp

/-- What it accepts at least -/
theorem windowLoop_complete {core : List Nat} (h1 : core ≠ []) (h2 : core.head? ≠ some 1)
    (h3 : core.getLast? ≠ some 1) (m : Nat) : ∀ (k : Nat),
    windowLoop core (windows core.length (singles k ++ core ++ singles m)) true = true
  | 0 => by
    cases core with
    | nil => exact absurd rfl h1
    | cons c t =>
      rw [singles_zero, List.nil_append, List.cons_append]
      unfold windows
      rw [if_pos (by simp), ← List.cons_append, List.take_left]
      unfold windowLoop
      rw [if_pos rfl, if_pos rfl, windowLoop_trailing]
      have hlast : ∀ v ∈ windows (c :: t).length (t ++ singles m), v.getLast? = some 1 := by
        rw [windows_last (by simp)]
        intro x hx
        rw [List.length_cons, Nat.add_sub_cancel, List.drop_left] at hx
        exact (List.mem_replicate.1 hx).2
      exact fun v hv => ⟨fun e => h3 (e ▸ hlast v hv), hlast v hv⟩
  | k + 1 => by
    have ih := windowLoop_complete h1 h2 h3 m k
    rw [singles_succ, List.cons_append, List.cons_append]
    unfold windows
    rw [if_pos (by simp; omega)]
    unfold windowLoop
    obtain ⟨n, hn⟩ := Nat.exists_eq_succ_of_ne_zero (fun e => h1 (List.length_eq_zero_iff.1 e))
    have hh : (((1 : Nat) :: (singles k ++ core ++ singles m)).take core.length).head? = some 1 := by
      rw [hn]
      rfl
    rw [if_neg (fun e => h2 (by rw [← hh, e])), if_pos rfl, if_neg (not_not_intro hh)]
    exact ih

theorem squeezed_append (a b : List Nat) : squeezed (a ++ b) = squeezed a ++ squeezed b := List.filter_append ..

theorem squeezed_ones (k : Nat) : squeezed (singles k) = [] := by
  unfold squeezed
  rw [List.filter_eq_nil_iff]
  intro x hx
  rw [(List.mem_replicate.1 hx).2]
  decide

theorem prod_append (a b : List Nat) : prod (a ++ b) = prod a * prod b := by
  induction a with
  | nil => simp
  | cons x a ih => rw [List.cons_append, prod_cons, prod_cons, ih, Nat.mul_assoc]

theorem prod_ones (k : Nat) : prod (singles k) = 1 := by
  induction k with
  | zero => rfl
  | succ k ih => rw [singles_succ, prod_cons, ih]

theorem prod_squeezed (s : List Nat) : prod (squeezed s) = prod s := by
  induction s with
  | nil => rfl
  | cons n s ih =>
    unfold squeezed at ih ⊢
    by_cases h : n = 1
    · rw [List.filter_cons_of_neg (by simpa using h), ih, prod_cons, h, Nat.one_mul]
    · rw [List.filter_cons_of_pos (by simpa using h), prod_cons, ih, prod_cons]

theorem ravel_squeezed : ∀ {s i : List Nat}, InBox i s → ravel (squeezed s) (squeezedIndex s i) = ravel s i
  | [], [], _ => rfl
  | n :: s, x :: i, h => by
    have ih := ravel_squeezed h.2
    have hp := prod_squeezed s
    unfold squeezed at ih hp ⊢
    unfold squeezedIndex
    by_cases hn : n = 1
    · have hx : x = 0 := by have := h.1; omega
      rw [List.filter_cons_of_neg (by simpa using hn), if_pos hn, ih, ravel_cons, hx, Nat.zero_mul, Nat.zero_add]
    · rw [List.filter_cons_of_pos (by simpa using hn), if_neg hn, ravel_cons, ravel_cons, ih, hp]

end Z5
