import Verif.Spec.JsonText

/-!
# Scanning: numbers, strings, white space
-/

namespace Z5

namespace JsonText

/-- a character that a number can go on with -/
def isNum (c : Char) : Bool := isDigit c || c = '.' || c = 'e' || c = 'E' || c = '+' || c = '-'

/-- the text does not go on with a number -/
def Stops : List Char → Prop
  | [] => True
  | c :: _ => isNum c = false

theorem digits_append {t s : List Char} (h : (digits t).2 ≠ [] ∨ Stops s) :
    digits (t ++ s) = ((digits t).1, (digits t).2 ++ s) := by
  induction t with
  | nil =>
    cases s with
    | nil => rfl
    | cons c s =>
      have h' : isNum c = false := by simpa [digits, Stops] using h
      have : isDigit c = false := by
        simp only [isNum, Bool.or_eq_false_iff] at h'
        exact h'.1.1.1.1.1
      simp [digits, this]
  | cons c t ih =>
    simp only [digits, List.cons_append] at h ⊢
    split
    · rename_i hc
      rw [if_pos hc] at h
      rw [ih h]
    · simp

theorem digits1_append {t s x r : List Char} (h : r ≠ [] ∨ Stops s) (e : digits1 t = some (x, r)) :
    digits1 (t ++ s) = some (x, r ++ s) := by
  simp only [digits1] at e ⊢
  split at e
  · cases e
  · rename_i h1
    have e : digits t = (x, r) := by simpa using e
    rw [digits_append (by rw [e]; exact h), e]
    rw [e] at h1
    simp [h1]

theorem scanInt_append {t s x r : List Char} (h : r ≠ [] ∨ Stops s) (e : scanInt t = some (x, r)) :
    scanInt (t ++ s) = some (x, r ++ s) := by
  cases t with
  | nil => cases e
  | cons c t =>
    simp only [scanInt, List.cons_append] at e ⊢
    split at e
    · rename_i hc; cases e; simp [hc]
    · rename_i hc; rw [if_neg hc]; exact digits1_append h e

theorem scanFrac_append {t s r : List Char} {x} (h : r ≠ [] ∨ Stops s) (e : scanFrac t = some (x, r)) :
    scanFrac (t ++ s) = some (x, r ++ s) := by
  cases t with
  | nil =>
    simp only [scanFrac, Option.some.injEq, Prod.mk.injEq] at e
    obtain ⟨rfl, rfl⟩ := e
    cases s with
    | nil => rfl
    | cons c s =>
      have h' : isNum c = false := by simpa [Stops] using h
      have : c ≠ '.' := by rintro rfl; revert h'; decide
      simp [scanFrac, this]
  | cons c t =>
    simp only [scanFrac, List.cons_append] at e ⊢
    split at e
    · rename_i hc
      cases hd : digits1 t with
      | none => rw [hd] at e; cases e
      | some y =>
        obtain ⟨y, r'⟩ := y
        rw [hd] at e
        simp only [Option.map, Option.some.injEq, Prod.mk.injEq] at e
        obtain ⟨rfl, rfl⟩ := e
        rw [if_pos hc, digits1_append h hd]; rfl
    · rename_i hc
      cases e; simp [hc]

theorem scanSign_append {t s : List Char} (h : t ≠ []) :
    scanSign (t ++ s) = ((scanSign t).1, (scanSign t).2 ++ s) := by
  cases t with
  | nil => exact absurd rfl h
  | cons c t =>
    simp only [scanSign, List.cons_append]
    split
    · rfl
    · split <;> rfl

theorem scanExp_append {t s r : List Char} {x} (h : r ≠ [] ∨ Stops s) (e : scanExp t = some (x, r)) :
    scanExp (t ++ s) = some (x, r ++ s) := by
  cases t with
  | nil =>
    simp only [scanExp, Option.some.injEq, Prod.mk.injEq] at e
    obtain ⟨rfl, rfl⟩ := e
    cases s with
    | nil => rfl
    | cons c s =>
      have h' : isNum c = false := by simpa [Stops] using h
      have h1 : c ≠ 'e' := by rintro rfl; revert h'; decide
      have h2 : c ≠ 'E' := by rintro rfl; revert h'; decide
      simp [scanExp, h1, h2]
  | cons c t =>
    simp only [scanExp, List.cons_append] at e ⊢
    split at e
    · rename_i hc
      cases hd : digits1 (scanSign t).2 with
      | none => rw [hd] at e; cases e
      | some y =>
        obtain ⟨y, r'⟩ := y
        rw [hd] at e
        simp only [Option.map, Option.some.injEq, Prod.mk.injEq] at e
        obtain ⟨rfl, rfl⟩ := e
        have ht : t ≠ [] := by rintro rfl; cases hd
        rw [if_pos hc, scanSign_append ht, digits1_append h hd]; rfl
    · rename_i hc
      cases e; simp [hc]

theorem scanMinus_append {t s : List Char} (h : t ≠ []) :
    scanMinus (t ++ s) = ((scanMinus t).1, (scanMinus t).2 ++ s) := by
  cases t with
  | nil => exact absurd rfl h
  | cons c t =>
    simp only [scanMinus, List.cons_append]
    split <;> rfl

theorem scanInt_nonempty {t : List Char} {x} (e : scanInt t = some x) : t ≠ [] := by
  rintro rfl; cases e

/-- the rest that a scan leaves is not empty if the rest that the next scan leaves is not -/
theorem digits_nil : digits [] = ([], []) := rfl

theorem scanNumber_append {t s r : List Char} {x} (h : r ≠ [] ∨ Stops s) (e : scanNumber t = some (x, r)) :
    scanNumber (t ++ s) = some (x, r ++ s) := by
  simp only [scanNumber] at e
  split at e
  · cases e
  · rename_i i r1 h1
    split at e
    · cases e
    · rename_i f r2 h2
      split at e
      · cases e
      · rename_i y r3 h3
        simp only [Option.some.injEq, Prod.mk.injEq] at e
        obtain ⟨rfl, rfl⟩ := e
        have ht : t ≠ [] := by
          rintro rfl; exact scanInt_nonempty h1 rfl
        have hr2 : r2 ≠ [] ∨ Stops s := by
          rcases h with h | h
          · exact .inl (by rintro rfl; simp only [scanExp, Option.some.injEq, Prod.mk.injEq] at h3; exact h h3.2.symm)
          · exact .inr h
        have hr1 : r1 ≠ [] ∨ Stops s := by
          rcases hr2 with h | h
          · exact .inl (by rintro rfl; simp only [scanFrac, Option.some.injEq, Prod.mk.injEq] at h2; exact h h2.2.symm)
          · exact .inr h
        simp only [scanNumber, scanMinus_append ht]
        rw [scanInt_append hr1 h1]
        simp only
        rw [scanFrac_append hr2 h2]
        simp only
        rw [scanExp_append h h3]

/-! ### strings -/

theorem hex4_append {t s r : List Char} {v} (e : hex4 t = some (v, r)) : hex4 (t ++ s) = some (v, r ++ s) := by
  match t with
  | [] | [_] | [_, _] | [_, _, _] => cases e
  | a :: b :: c :: d :: t =>
    simp only [hex4, List.cons_append] at e ⊢
    split at e
    · rename_i h1 h2 h3 h4
      simp only [Option.some.injEq, Prod.mk.injEq] at e
      obtain ⟨rfl, rfl⟩ := e
      simp only [h1, h2, h3, h4]
    · cases e

theorem scanUnicode_append {t s r : List Char} {v} (e : scanUnicode t = some (v, r)) :
    scanUnicode (t ++ s) = some (v, r ++ s) := by
  simp only [scanUnicode] at e ⊢
  split at e
  · cases e
  · rename_i n r1 h1
    rw [hex4_append h1]
    simp only
    split at e
    · rename_i hn
      rw [if_pos hn]
      match r1 with
      | [] | [_] => cases e
      | x :: y :: r2 =>
        simp only [List.cons_append] at e ⊢
        split at e
        · rename_i hxy
          rw [if_pos hxy]
          split at e
          · cases e
          · rename_i w r3 h3
            rw [hex4_append h3]
            simp only
            split at e
            · rename_i hw
              simp only [Option.some.injEq, Prod.mk.injEq] at e
              obtain ⟨rfl, rfl⟩ := e
              rw [if_pos hw]
            · cases e
        · cases e
    · rename_i hn
      rw [if_neg hn]
      split at e
      · cases e
      · rename_i hn'
        simp only [Option.some.injEq, Prod.mk.injEq] at e
        obtain ⟨rfl, rfl⟩ := e
        rw [if_neg hn']

theorem scanEscape_append {t s r : List Char} {v} (e : scanEscape t = some (v, r)) :
    scanEscape (t ++ s) = some (v, r ++ s) := by
  cases t with
  | nil => cases e
  | cons c t =>
    simp only [scanEscape, List.cons_append] at e ⊢
    repeat' split at e
    all_goals first
      | cases e; done
      | (simp only [Option.some.injEq, Prod.mk.injEq] at e
         obtain ⟨rfl, rfl⟩ := e
         simp [*])
      | simp [*, scanUnicode_append e]

theorem scanChar_append {t s r : List Char} {v} (e : scanChar t = some (v, r)) :
    scanChar (t ++ s) = some (v, r ++ s) := by
  cases t with
  | nil => cases e
  | cons c t =>
    simp only [scanChar, List.cons_append] at e ⊢
    repeat' split at e
    all_goals first
      | cases e; done
      | (simp only [Option.some.injEq, Prod.mk.injEq] at e
         obtain ⟨rfl, rfl⟩ := e
         simp [*])
      | simp [*, scanEscape_append e]

theorem scanString_append {m : Nat} : ∀ {n : Nat} {t s r x : List Char}, n ≤ m → scanString n t = some (x, r) →
    scanString m (t ++ s) = some (x, r ++ s) := by
  induction m with
  | zero =>
    intro n t s r x hn e
    have : n = 0 := by omega
    subst this; cases e
  | succ m ih =>
    intro n t s r x hn e
    cases n with
    | zero => cases e
    | succ n =>
      simp only [scanString] at e ⊢
      split at e
      · cases e
      · rename_i r1 h1
        simp only [Option.some.injEq, Prod.mk.injEq] at e
        obtain ⟨rfl, rfl⟩ := e
        rw [scanChar_append h1]
      · rename_i c r1 h1
        rw [scanChar_append h1]
        simp only
        split at e
        · cases e
        · rename_i y r2 h2
          simp only [Option.some.injEq, Prod.mk.injEq] at e
          obtain ⟨rfl, rfl⟩ := e
          rw [ih (by omega) h2]

/-! ### white space -/

theorem skipWs_append {t s : List Char} (h : skipWs t ≠ []) : skipWs (t ++ s) = skipWs t ++ s := by
  induction t with
  | nil => exact absurd rfl h
  | cons c t ih =>
    simp only [skipWs, List.cons_append] at h ⊢
    split
    · rename_i hc; rw [if_pos hc] at h; exact ih h
    · simp

theorem expect_append {x : Char} {t s r : List Char} (e : expect x t = some r) : expect x (t ++ s) = some (r ++ s) := by
  simp only [expect] at e ⊢
  split at e
  · cases e
  · rename_i c r1 h1
    rw [skipWs_append (by rw [h1]; simp), h1]
    simp only [List.cons_append]
    split at e
    · rename_i hc; cases e; simp [hc]
    · cases e

/-- the next character is another one -/
theorem expect_none_append {x : Char} {t s : List Char} (h : skipWs t ≠ []) (e : expect x t = none) :
    expect x (t ++ s) = none := by
  simp only [expect] at e ⊢
  rw [skipWs_append h]
  split at e
  · rename_i h1; exact absurd h1 h
  · rename_i c r h1
    rw [h1]
    simp only [List.cons_append]
    split at e
    · cases e
    · rename_i hc; simp [hc]

theorem keyword_append {w : List Char} : ∀ {t s r : List Char}, keyword w t = some r → keyword w (t ++ s) = some (r ++ s) := by
  induction w with
  | nil => intro t s r e; simpa [keyword] using e
  | cons c w ih =>
    intro t s r e
    cases t with
    | nil => cases e
    | cons d t =>
      simp only [keyword, List.cons_append] at e ⊢
      split at e
      · rename_i hc; rw [if_pos hc]; exact ih e
      · cases e

end JsonText

end Z5
