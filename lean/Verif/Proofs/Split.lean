import Verif.Proofs.Keys

/-!
# Lemmas about `split`
-/

namespace Z5

theorem findStr_some {d : List Char} (hd : d ≠ []) : ∀ {s : List Char} {i : Nat},
    findStr d s = some i →
    s = s.take i ++ (d ++ s.drop (i + d.length)) ∧ ∀ j, j < i → ¬ d <+: s.drop j
  | [], i, h => by
    rw [findStr, if_neg hd] at h; simp at h
  | c :: s, i, h => by
    rw [findStr] at h
    split at h
    · next hp =>
      cases Option.some.inj h
      obtain ⟨t, ht⟩ := List.isPrefixOf_iff_prefix.1 hp
      refine ⟨?_, fun j hj => absurd hj (by omega)⟩
      rw [List.take_zero, List.nil_append, Nat.zero_add, ← ht, List.drop_left]
    · next hp =>
      cases hf : findStr d s with
      | none => rw [hf] at h; simp at h
      | some k =>
        rw [hf] at h
        simp only [Option.map_some, Option.some.injEq] at h
        subst h
        obtain ⟨h1, h2⟩ := findStr_some hd hf
        refine ⟨?_, ?_⟩
        · rw [List.take_succ_cons, show k + 1 + d.length = (k + d.length) + 1 by omega,
            List.drop_succ_cons, List.cons_append, ← h1]
        · intro j hj
          cases j with
          | zero =>
            rw [List.drop_zero]
            intro hh
            exact hp (List.isPrefixOf_iff_prefix.2 hh)
          | succ j => rw [List.drop_succ_cons]; exact h2 j (by omega)

theorem findStr_none {d : List Char} : ∀ {s : List Char}, findStr d s = none →
    ∀ j, j ≤ s.length → ¬ d <+: s.drop j
  | [], h, j, hj => by
    have : j = 0 := by simpa using hj
    subst this
    rw [findStr] at h
    split at h
    · simp at h
    · next hd =>
      rintro ⟨t, ht⟩
      simp at ht
      exact hd ht.1
  | c :: s, h, j, hj => by
    rw [findStr] at h
    split at h
    · simp at h
    · next hp =>
      have hf : findStr d s = none := by
        cases hf : findStr d s with
        | none => rfl
        | some k => rw [hf] at h; simp at h
      cases j with
      | zero => exact fun hh => hp (List.isPrefixOf_iff_prefix.2 hh)
      | succ j => exact findStr_none hf j (by simpa using hj)

/-- no occurrence at positions before `i` means that the first `i` characters contain none -/
theorem not_infix_take {d s : List Char} {i : Nat} (hd : d ≠ [])
    (h : ∀ j, j < i → ¬ d <+: s.drop j) : ¬ d <:+: s.take i := by
  rintro ⟨a, b, hab⟩
  have hl := congrArg List.length hab
  have hdl : 0 < d.length := List.length_pos_iff.2 hd
  simp only [List.length_append, List.length_take] at hl
  refine h a.length (by omega) ?_
  have : s = a ++ (d ++ (b ++ s.drop i)) := by
    have := (List.take_append_drop i s)
    rw [← hab] at this
    simpa using this.symm
  rw [this, List.drop_left]
  exact ⟨_, rfl⟩

theorem not_infix_of {d s : List Char} (h : ∀ j, j ≤ s.length → ¬ d <+: s.drop j) : ¬ d <:+: s := by
  rintro ⟨a, b, hab⟩
  refine h a.length ?_ ?_
  · rw [← hab]; simp
  · rw [← hab, List.append_assoc, List.drop_left]
    exact ⟨_, rfl⟩

theorem splitLoop_spec {d : List Char} (hd : d ≠ []) : ∀ (fuel : Nat) (s : List Char),
    s.length < fuel → ∃ ps, splitLoop d fuel s = some ps ∧ ps ≠ [] ∧ d.intercalate ps = s ∧
      ∀ p ∈ ps, ¬ d <:+: p
  | 0, s, h => absurd h (by omega)
  | fuel + 1, s, h => by
    rw [splitLoop]
    cases hf : findStr d s with
    | none =>
      refine ⟨[s], rfl, by simp, by simp [List.intercalate], ?_⟩
      intro p hp
      rw [List.mem_singleton] at hp
      subst hp
      exact not_infix_of (findStr_none hf)
    | some i =>
      obtain ⟨h1, h2⟩ := findStr_some hd hf
      have hdl : 0 < d.length := List.length_pos_iff.2 hd
      have hl := congrArg List.length h1
      simp only [List.length_append, List.length_take, List.length_drop] at hl
      obtain ⟨ps, e, hne, hi, hp⟩ := splitLoop_spec hd fuel (s.drop (i + d.length))
        (by rw [List.length_drop]; omega)
      refine ⟨s.take i :: ps, by simp [e], by simp, ?_, ?_⟩
      · cases ps with
        | nil => exact absurd rfl hne
        | cons q qs =>
          rw [List.intercalate_cons_cons, hi]
          simpa using h1.symm
      · intro p hp'
        rcases List.mem_cons.1 hp' with rfl | hp'
        · exact not_infix_take hd h2
        · exact hp p hp'

theorem findStr_digits {c : Char} {d : List Char} (hc : c.isDigit = false) :
    ∀ (a X : List Char), (∀ x ∈ a, x.isDigit = true) →
      findStr (c :: d) (a ++ (c :: d ++ X)) = some a.length
  | [], X, _ => by
    rw [List.nil_append, List.cons_append, findStr, if_pos]
    · rfl
    · rw [List.isPrefixOf_iff_prefix]
      exact ⟨X, rfl⟩
  | x :: a, X, h => by
    have hx := h x List.mem_cons_self
    rw [List.cons_append, findStr, if_neg,
      findStr_digits hc a X fun y hy => h y (List.mem_cons_of_mem _ hy)]
    · rfl
    · rw [List.isPrefixOf_iff_prefix]
      rintro ⟨t, ht⟩
      rw [List.cons_append] at ht
      have := (List.cons.inj ht).1
      subst this
      rw [hc] at hx; simp at hx

theorem findStr_digits_none {c : Char} {d : List Char} (hc : c.isDigit = false) :
    ∀ (a : List Char), (∀ x ∈ a, x.isDigit = true) → findStr (c :: d) a = none
  | [], _ => by simp [findStr]
  | x :: a, h => by
    have hx := h x List.mem_cons_self
    rw [findStr, if_neg, findStr_digits_none hc a fun y hy => h y (List.mem_cons_of_mem _ hy)]
    · rfl
    · rw [List.isPrefixOf_iff_prefix]
      rintro ⟨t, ht⟩
      rw [List.cons_append] at ht
      have := (List.cons.inj ht).1
      subst this
      rw [hc] at hx; simp at hx

theorem splitLoop_join {c : Char} {d : List Char} (hc : c.isDigit = false) :
    ∀ (is : List Nat) (i fuel : Nat), is.length < fuel →
      splitLoop (c :: d) fuel (toStr i ++ tailStr (c :: d) is) = some ((i :: is).map toStr)
  | [], i, 0, h => absurd h (by simp)
  | [], i, fuel + 1, _ => by
    rw [splitLoop, tailStr, List.append_nil,
      findStr_digits_none hc _ fun x hx => isDigit_of_mem_toStr hx]
    rfl
  | _ :: _, _, 0, h => absurd h (by simp)
  | j :: is, i, fuel + 1, h => by
    rw [splitLoop, tailStr, findStr_digits hc _ _ fun x hx => isDigit_of_mem_toStr hx]
    simp only
    rw [List.take_left, show toStr i ++ (c :: d ++ (toStr j ++ tailStr (c :: d) is)) =
      (toStr i ++ c :: d) ++ (toStr j ++ tailStr (c :: d) is) by simp,
      show (toStr i).length + (c :: d).length = (toStr i ++ c :: d).length by simp, List.drop_left,
      splitLoop_join hc is j fuel (by simpa using h)]
    rfl

theorem length_tailStr (d : List Char) : ∀ is : List Nat, is.length ≤ (tailStr d is).length
  | [] => by simp
  | i :: is => by
    have := length_tailStr d is
    have h2 := List.length_pos_iff.2 (toStr_ne_nil i)
    rw [tailStr, List.length_append, List.length_append, List.length_cons]
    omega

end Z5
