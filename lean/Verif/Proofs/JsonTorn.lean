import Verif.Proofs.JsonScan

/-!
# What is read from a text is read from every longer text
-/

namespace Z5

namespace JsonText

theorem keyword_head {c d : Char} {w r : List Char} (h : c ≠ d) : keyword (c :: w) (d :: r) = none := by
  simp [keyword, h]

theorem keyword_head_eq {c d : Char} {w r x : List Char} (h : keyword (c :: w) (d :: r) = some x) : c = d := by
  by_cases e : c = d
  · exact e
  · rw [keyword_head e] at h; cases h

theorem scanInt_head {c : Char} {r : List Char} {x} (h : scanInt (c :: r) = some x) : isDigit c = true := by
  simp only [scanInt] at h
  split at h
  · rename_i hc; subst hc; decide
  · by_cases hd : isDigit c = true
    · exact hd
    · simp [digits1, digits, hd] at h

theorem scanNumber_head {c : Char} {r : List Char} {x} (h : scanNumber (c :: r) = some x) : isDigit c = true ∨ c = '-' := by
  simp only [scanNumber] at h
  split at h
  · cases h
  · rename_i i r1 h1
    simp only [scanMinus] at h1
    split at h1
    · rename_i hc; exact .inr hc
    · exact .inl (scanInt_head h1)

/-- is it a number? -/
def IsNumber : Json → Prop
  | .int _ | .float _ => True
  | _ => False

theorem parseAtom_append {t s r : List Char} {j : Json} (h : r ≠ [] ∨ ¬ IsNumber j)
    (e : parseAtom .cpp t = some (j, r)) : parseAtom .cpp (t ++ s) = some (j, r ++ s) := by
  cases t with
  | nil => simp [parseAtom, keyword, scanNumber, scanMinus, scanInt] at e
  | cons c t =>
    simp only [parseAtom, reduceCtorEq, if_false] at e ⊢
    split at e
    · rename_i r1 h1
      cases e
      rw [keyword_append h1]
    · split at e
      · rename_i r1 h1
        have hc := keyword_head_eq h1
        subst hc
        cases e
        rw [keyword_append h1]
        simp [keyword]
      · split at e
        · rename_i r1 h1
          have hc := keyword_head_eq h1
          subst hc
          cases e
          rw [keyword_append h1]
          simp [keyword]
        · split at e
          · cases e
          · rename_i x r1 h1
            split at e
            · cases e
            · rename_i v hv
              simp only [Option.some.injEq, Prod.mk.injEq] at e
              obtain ⟨rfl, rfl⟩ := e
              have hn : IsNumber v := by
                simp only [numberValue] at hv
                split at hv
                · cases hv; trivial
                · split at hv <;> cases hv
                  trivial
              have hr : r1 ≠ [] ∨ Stops s := by
                rcases h with h | h
                · exact .inl h
                · exact absurd hn h
              have hh := scanNumber_head h1
              have k1 : 'n' ≠ c := by rintro rfl; revert hh; decide
              have k2 : 't' ≠ c := by rintro rfl; revert hh; decide
              have k3 : 'f' ≠ c := by rintro rfl; revert hh; decide
              have h1' := scanNumber_append hr h1
              rw [List.cons_append] at h1' ⊢
              rw [keyword_head k1, keyword_head k2, keyword_head k3, h1']
              simp only [hv]

theorem parseValue_ws {lib : Lib} {n : Nat} {t : List Char} {x} (e : parseValue lib n t = some x) : skipWs t ≠ [] := by
  intro h
  cases n with
  | zero => simp [parseValue] at e
  | succ n => simp [parseValue, h] at e

theorem expect_ws {x : Char} {t r : List Char} (e : expect x t = some r) : skipWs t ≠ [] := by
  intro h; simp [expect, h] at e

theorem ws_ne {t : List Char} (h : skipWs t ≠ []) : t ≠ [] := by rintro rfl; exact h rfl

theorem parseElems_ws {lib : Lib} {n : Nat} {acc t x} (e : parseElems lib n acc t = some x) : skipWs t ≠ [] := by
  cases n with
  | zero => simp [parseElems] at e
  | succ n =>
    simp only [parseElems] at e
    split at e
    · cases e
    · rename_i h; exact parseValue_ws h

theorem parseMembers_ws {lib : Lib} {n : Nat} {acc t x} (e : parseMembers lib n acc t = some x) : skipWs t ≠ [] := by
  cases n with
  | zero => simp [parseMembers] at e
  | succ n =>
    simp only [parseMembers] at e
    split at e
    · cases e
    · rename_i h; exact expect_ws h

theorem parse_append (m : Nat) : ∀ n, n ≤ m →
    (∀ t s r j, (r ≠ [] ∨ ¬ IsNumber j) → parseValue .cpp n t = some (j, r) → parseValue .cpp m (t ++ s) = some (j, r ++ s)) ∧
    (∀ acc t s r j, parseElems .cpp n acc t = some (j, r) → parseElems .cpp m acc (t ++ s) = some (j, r ++ s)) ∧
    (∀ acc t s r j, parseMembers .cpp n acc t = some (j, r) → parseMembers .cpp m acc (t ++ s) = some (j, r ++ s)) := by
  induction m with
  | zero =>
    intro n hn
    have : n = 0 := by omega
    subst this
    refine ⟨?_, ?_, ?_⟩ <;> intros <;> simp_all [parseValue, parseElems, parseMembers]
  | succ m ih =>
    intro n hn
    cases n with
    | zero => refine ⟨?_, ?_, ?_⟩ <;> intros <;> simp_all [parseValue, parseElems, parseMembers]
    | succ n =>
      obtain ⟨ihV, ihE, ihM⟩ := ih n (by omega)
      refine ⟨?_, ?_, ?_⟩
      · intro t s r j h e
        have hw := parseValue_ws e
        simp only [parseValue] at e ⊢
        rw [skipWs_append hw]
        split at e
        · cases e
        · rename_i c r1 h1
          rw [h1]
          simp only [List.cons_append]
          split at e
          · rename_i hc
            rw [if_pos hc]
            split at e
            · rename_i r2 h2
              cases e
              rw [expect_append h2]
            · rename_i h2
              rw [expect_none_append (parseMembers_ws e) h2]
              exact ihM _ _ _ _ _ e
          · rename_i hc
            rw [if_neg hc]
            split at e
            · rename_i hc
              rw [if_pos hc]
              split at e
              · rename_i r2 h2
                cases e
                rw [expect_append h2]
              · rename_i h2
                rw [expect_none_append (parseElems_ws e) h2]
                exact ihE _ _ _ _ _ e
            · rename_i hc
              rw [if_neg hc]
              split at e
              · rename_i hc
                rw [if_pos hc]
                split at e
                · cases e
                · rename_i x r2 h2
                  cases e
                  rw [scanString_append (by omega) h2]
              · rename_i hc
                rw [if_neg hc]
                exact parseAtom_append h e
      · intro acc t s r j e
        simp only [parseElems] at e ⊢
        split at e
        · cases e
        · rename_i v r1 h1
          split at e
          · rename_i r2 h2
            rw [ihV _ _ _ _ (.inl (ws_ne (expect_ws h2))) h1]
            simp only
            rw [expect_append h2]
            exact ihE _ _ _ _ _ e
          · rename_i h2
            split at e
            · rename_i r2 h3
              cases e
              rw [ihV _ _ _ _ (.inl (ws_ne (expect_ws h3))) h1]
              simp only
              rw [expect_none_append (expect_ws h3) h2, expect_append h3]
            · cases e
      · intro acc t s r j e
        simp only [parseMembers] at e ⊢
        split at e
        · cases e
        · rename_i r1 h1
          rw [expect_append h1]
          simp only
          split at e
          · cases e
          · rename_i k r2 h2
            rw [scanString_append (by omega) h2]
            simp only
            split at e
            · cases e
            · rename_i r3 h3
              rw [expect_append h3]
              simp only
              split at e
              · cases e
              · rename_i v r4 h4
                split at e
                · rename_i r5 h5
                  rw [ihV _ _ _ _ (.inl (ws_ne (expect_ws h5))) h4]
                  simp only
                  rw [expect_append h5]
                  exact ihM _ _ _ _ _ e
                · rename_i h5
                  split at e
                  · rename_i r6 h6
                    cases e
                    rw [ihV _ _ _ _ (.inl (ws_ne (expect_ws h6))) h4]
                    simp only
                    rw [expect_none_append (expect_ws h6) h5, expect_append h6]
                  · cases e

end JsonText

end Z5
