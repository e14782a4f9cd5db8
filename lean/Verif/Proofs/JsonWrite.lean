import Verif.Proofs.JsonTorn
import Verif.Proofs.Keys

/-!
# What is read from a text that was written
-/

namespace Z5

namespace JsonText

/-! ### characters and strings -/

theorem hexVal_hexDigit {n : Nat} (h : n < 16) : hexVal (hexDigit n) = some n := by
  have : ∀ n, n < 16 → hexVal (hexDigit n) = some n := by decide
  exact this n h

theorem hex4_escape {n : Nat} (h : n < 65536) (r : List Char) :
    hex4 (hexDigit (n / 4096 % 16) :: hexDigit (n / 256 % 16) :: hexDigit (n / 16 % 16) :: hexDigit (n % 16) :: r) =
      some (n, r) := by
  simp only [hex4, hexVal_hexDigit (Nat.mod_lt _ (by decide : 0 < 16))]
  congr 2
  omega

theorem char_valid (c : Char) : c.toNat < 0xD800 ∨ (0xDFFF < c.toNat ∧ c.toNat < 0x110000) := c.valid

theorem scanUnicode_low {c : Char} (h : c.toNat < 0x10000) (r : List Char) :
    scanUnicode (hexDigit (c.toNat / 4096 % 16) :: hexDigit (c.toNat / 256 % 16) :: hexDigit (c.toNat / 16 % 16) ::
      hexDigit (c.toNat % 16) :: r) = some (some c, r) := by
  have hv := char_valid c
  simp only [scanUnicode, hex4_escape h]
  rw [if_neg (by omega), if_neg (by omega), Char.ofNat_toNat]

theorem scanUnicode_pair {c : Char} {v w : Nat} (h1 : 0xD800 ≤ v ∧ v < 0xDC00) (h2 : 0xDC00 ≤ w ∧ w < 0xE000)
    (e : 0x10000 + (v - 0xD800) * 0x400 + (w - 0xDC00) = c.toNat) (r : List Char) :
    scanUnicode (hexDigit (v / 4096 % 16) :: hexDigit (v / 256 % 16) :: hexDigit (v / 16 % 16) :: hexDigit (v % 16) ::
      (unicodeEscape w ++ r)) = some (some c, r) := by
  simp only [scanUnicode, hex4_escape (show v < 65536 by omega)]
  rw [if_pos h1]
  simp only [unicodeEscape, List.cons_append, List.nil_append, and_self, if_true, hex4_escape (show w < 65536 by omega)]
  rw [if_pos h2, e, Char.ofNat_toNat]

theorem surrogates {c n : Nat} (h : ¬ c < 0x10000) (hn : c < 0x110000) (e : c - 0x10000 = n) :
    (0xD800 ≤ 0xD800 + n / 0x400 ∧ 0xD800 + n / 0x400 < 0xDC00) ∧ (0xDC00 ≤ 0xDC00 + n % 0x400 ∧ 0xDC00 + n % 0x400 < 0xE000) ∧
      0x10000 + (0xD800 + n / 0x400 - 0xD800) * 0x400 + (0xDC00 + n % 0x400 - 0xDC00) = c := by
  omega

theorem scanUnicode_high {c : Char} (h : ¬ c.toNat < 0x10000) (r : List Char) :
    scanEscape ('u' :: ((unicodeEscape (0xD800 + (c.toNat - 0x10000) / 0x400)).drop 2 ++
      (unicodeEscape (0xDC00 + (c.toNat - 0x10000) % 0x400) ++ r))) = some (some c, r) := by
  have hv := char_valid c
  obtain ⟨h1, h2, h3⟩ := surrogates h (by omega) rfl
  generalize 0xD800 + (c.toNat - 0x10000) / 0x400 = v at *
  generalize 0xDC00 + (c.toNat - 0x10000) % 0x400 = w at *
  have := scanUnicode_pair h1 h2 h3 r
  simpa [scanEscape, unicodeEscape] using this

theorem scanChar_escape (v w : Nat) (r : List Char) :
    scanChar (unicodeEscape v ++ unicodeEscape w ++ r) = scanEscape ('u' :: ((unicodeEscape v).drop 2 ++ (unicodeEscape w ++ r))) := by
  simp [unicodeEscape, scanChar]

theorem ofNat_of_toNat {c : Char} {n : Nat} (h : c.toNat = n) : Char.ofNat n = c := by
  rw [← h, Char.ofNat_toNat]

theorem scanChar_writeChar (ascii : Bool) (c : Char) (r : List Char) :
    scanChar (writeChar ascii c ++ r) = some (some c, r) := by
  simp only [writeChar]
  split
  · rename_i h; subst h; rfl
  split
  · rename_i h; subst h; rfl
  rename_i hq hb
  split
  · rename_i h; rw [← ofNat_of_toNat h]; rfl
  split
  · rename_i h; rw [← ofNat_of_toNat h]; rfl
  split
  · rename_i h; rw [← ofNat_of_toNat h]; rfl
  split
  · rename_i h; rw [← ofNat_of_toNat h]; rfl
  split
  · rename_i h; rw [← ofNat_of_toNat h]; rfl
  split
  · split
    · rename_i h
      show scanEscape ('u' :: _) = _
      simp only [scanEscape]
      simpa using scanUnicode_low h r
    · rename_i h
      rw [scanChar_escape]
      exact scanUnicode_high h r
  · rename_i h
    simp only [scanChar, List.cons_append, List.nil_append]
    rw [if_neg hq, if_neg hb, if_neg (by omega)]

theorem scanString_writeRest (ascii : Bool) : ∀ (s : List Char) (n : Nat) (r : List Char), s.length < n →
    scanString n (writeRest ascii s ++ r) = some (s, r)
  | [], n, r, h => by
    cases n with
    | zero => cases h
    | succ n => rfl
  | c :: s, n, r, h => by
    cases n with
    | zero => cases h
    | succ n =>
      have e : writeRest ascii (c :: s) ++ r = writeChar ascii c ++ (writeRest ascii s ++ r) := by
        simp [writeRest]
      rw [e, scanString, scanChar_writeChar]
      simp only
      rw [scanString_writeRest ascii s n r (by simpa using h)]

theorem length_writeChar (ascii : Bool) (c : Char) : 1 ≤ (writeChar ascii c).length := by
  simp only [writeChar, unicodeEscape]
  repeat' split
  all_goals simp

theorem length_writeRest (ascii : Bool) (s : List Char) : s.length < (writeRest ascii s).length := by
  induction s with
  | nil => simp [writeRest]
  | cons c s ih =>
    have := length_writeChar ascii c
    simp only [writeRest, List.flatMap_cons, List.length_append, List.length_cons] at ih ⊢
    omega

/-! ### numbers -/

theorem isDigit_iff {c : Char} : c.isDigit = true ↔ isDigit c = true := by
  simp only [Char.isDigit, isDigit, Bool.and_eq_true, decide_eq_true_eq, ge_iff_le, UInt32.le_iff_toNat_le]
  exact Iff.rfl

theorem digits_all {l : List Char} (h : ∀ c ∈ l, isDigit c = true) : digits l = (l, []) := by
  induction l with
  | nil => rfl
  | cons c l ih =>
    simp only [digits]
    rw [if_pos (h c (by simp)), ih fun c hc => h c (by simp [hc])]

theorem natOf_toStr (n : Nat) : natOf (toStr n) = n := Nat.ofDigitChars_ten_toDigits

theorem isDigit_toStr {n : Nat} {c : Char} (h : c ∈ toStr n) : isDigit c = true :=
  isDigit_iff.1 (isDigit_of_mem_toStr h)

theorem toStr_head (n : Nat) (h : 0 < n) : ∃ c r, toStr n = c :: r ∧ c ≠ '0' := by
  induction n using Nat.strongRecOn with
  | ind n ih =>
    by_cases hn : n < 10
    · refine ⟨n.digitChar, [], ?_, ?_⟩
      · simp [toStr, Nat.toDigits_of_lt_base hn]
      · have : ∀ n, 0 < n → n < 10 → n.digitChar ≠ '0' := by
          intro n h0 h1
          have : ∀ m, m < 10 → 0 < m → m.digitChar ≠ '0' := by decide
          exact this n h1 h0
        exact this n h hn
    · obtain ⟨c, r, e, hc⟩ := ih (n / 10) (by omega) (by omega)
      refine ⟨c, r ++ [(n % 10).digitChar], ?_, hc⟩
      rw [toStr, Nat.toDigits_of_base_le (by decide) (by omega)]
      rw [toStr] at e
      rw [e]; rfl

theorem scanInt_toStr (n : Nat) : scanInt (toStr n) = some (toStr n, []) := by
  by_cases h : n = 0
  · subst h; rfl
  · obtain ⟨c, r, e, hc⟩ := toStr_head n (by omega)
    have hd : digits (toStr n) = (toStr n, []) := digits_all fun c hc => isDigit_toStr hc
    rw [e] at hd ⊢
    simp only [scanInt, if_neg hc, digits1, hd, List.isEmpty_cons]
    rfl

theorem minus_not_digit : isDigit '-' = false := by decide

theorem scanMinus_toStr (n : Nat) : scanMinus (toStr n) = (false, toStr n) := by
  cases e : toStr n with
  | nil => exact absurd e (toStr_ne_nil n)
  | cons c r =>
    have hd := isDigit_toStr (n := n) (c := c) (by rw [e]; simp)
    have : c ≠ '-' := by rintro rfl; rw [minus_not_digit] at hd; cases hd
    simp [scanMinus, this]

theorem scanNumber_writeInt (i : Int) :
    scanNumber (writeInt i) = some (⟨decide (i < 0), toStr i.natAbs, none, none⟩, []) := by
  simp only [writeInt]
  split
  · rename_i h
    have : scanMinus ('-' :: toStr i.natAbs) = (true, toStr i.natAbs) := by simp [scanMinus]
    simp [scanNumber, this, scanInt_toStr, scanFrac, scanExp, h]
  · rename_i h
    simp [scanNumber, scanMinus_toStr, scanInt_toStr, scanFrac, scanExp, h]

theorem number_toInt (i : Int) : (⟨decide (i < 0), toStr i.natAbs, none, none⟩ : Number).toInt = i := by
  simp only [Number.toInt, natOf_toStr]
  by_cases h : i < 0
  · simp [h]; omega
  · simp [h]; omega

theorem number_toDbl (i : Int) :
    (⟨decide (i < 0), toStr i.natAbs, none, none⟩ : Number).toDbl = Dbl.ofDecimal (decide (i < 0)) i.natAbs 0 := by
  simp [Number.toDbl, Number.mantissa, Number.exponent, natOf_toStr]

theorem numberValue_int (lib : Lib) (i : Int) :
    numberValue lib ⟨decide (i < 0), toStr i.natAbs, none, none⟩ = receivedInt lib i := by
  cases lib with
  | cpp =>
    simp only [numberValue, number_toInt, number_toDbl, receivedInt, Number.isFloat]
    by_cases h : -2 ^ 63 ≤ i ∧ i < 2 ^ 64
    · simp only [Option.isSome_none, Bool.or_self, Bool.not_false, Bool.true_and, decide_eq_true_eq, if_pos h]
    · simp only [Option.isSome_none, Bool.or_self, Bool.not_false, Bool.true_and, decide_eq_true_eq, if_neg h]
      cases Dbl.ofDecimal (decide (i < 0)) i.natAbs 0 <;> rfl
  | py => simp [numberValue, number_toInt, receivedInt, Number.isFloat]

/-! ### literals -/

theorem digits_of {l : List Char} (h : Literal.Digits1 l) : digits1 l = some (l, []) := by
  have hd : digits l = (l, []) := digits_all fun c hc => by
    have := h.2 c hc
    simp only [isDigit, Bool.and_eq_true, decide_eq_true_eq]; exact this
  have : l.isEmpty = false := by
    cases l with
    | nil => exact absurd rfl h.1
    | cons _ _ => rfl
  simp [digits1, hd, this]

theorem scanInt_of {l : List Char} (h : Literal.Digits1 l) (h0 : l = ['0'] ∨ l.head? ≠ some '0') : scanInt l = some (l, []) := by
  rcases h0 with rfl | h0
  · rfl
  · have h1 := digits_of h
    cases l with
    | nil => exact absurd rfl h.1
    | cons c r =>
      have hc : c ≠ '0' := by rintro rfl; exact h0 rfl
      rw [scanInt, if_neg hc]; exact h1

/-- what follows a digit in a literal is none -/
theorem digits_stop {l : List Char} {c : Char} {s : List Char} (hc : isDigit c = false) (e : digits1 l = some (l, [])) :
    digits1 (l ++ c :: s) = some (l, c :: s) := by
  have key : ∀ l : List Char, (digits l).2 = [] → digits (l ++ c :: s) = ((digits l).1, c :: s) := by
    intro l
    induction l with
    | nil => intro _; simp [digits, hc]
    | cons d l ih =>
      intro h
      simp only [digits, List.cons_append] at h ⊢
      split
      · rename_i hd; rw [if_pos hd] at h; rw [ih h]
      · rename_i hd; rw [if_neg hd] at h; cases h
  simp only [digits1] at e ⊢
  split at e
  · cases e
  · rename_i h1
    have e : digits l = (l, []) := by simpa using e
    rw [key l (by rw [e]), e]
    rw [e] at h1
    simp [h1]

theorem scanInt_stop {l : List Char} {c : Char} {s : List Char} (hc : isDigit c = false) (h : Literal.Digits1 l)
    (h0 : l = ['0'] ∨ l.head? ≠ some '0') : scanInt (l ++ c :: s) = some (l, c :: s) := by
  rcases h0 with rfl | h0
  · rfl
  · have h1 := digits_stop (s := s) hc (digits_of h)
    cases l with
    | nil => exact absurd rfl h.1
    | cons d r =>
      have hd : d ≠ '0' := by rintro rfl; exact h0 rfl
      rw [List.cons_append, scanInt, if_neg hd]; exact h1

/-- the number that a literal is scanned as -/
def Literal.number (x : Literal) : Number :=
  ⟨x.minus, x.int, x.frac, x.exp.map fun y => (decide (y.2.1 = some '-'), y.2.2)⟩

theorem scanMinus_literal (x : Literal) (h : x.WF) (s : List Char) :
    scanMinus ((if x.minus then ['-'] else []) ++ (x.int ++ s)) = (x.minus, x.int ++ s) := by
  cases hm : x.minus with
  | true => rfl
  | false =>
    have h1 := h.int
    cases hi : x.int with
    | nil => exact absurd hi h1.1
    | cons c r =>
      have : c ≠ '-' := by
        rintro rfl
        have := h1.2 '-' (by rw [hi]; simp)
        revert this; decide
      simp [scanMinus, this]

theorem scanSign_literal {s : Option Char} {e : List Char} (hs : s = none ∨ s = some '+' ∨ s = some '-') (he : Literal.Digits1 e) :
    scanSign (s.toList ++ e) = (decide (s = some '-'), e) := by
  rcases hs with rfl | rfl | rfl
  · cases e with
    | nil => exact absurd rfl he.1
    | cons c r =>
      have h1 : c ≠ '-' := by
        rintro rfl
        have := he.2 '-' (by simp)
        revert this; decide
      have h2 : c ≠ '+' := by
        rintro rfl
        have := he.2 '+' (by simp)
        revert this; decide
      simp [scanSign, h1, h2]
  · simp [scanSign]
  · simp [scanSign]

theorem scanExp_literal {m : Char} {s : Option Char} {e : List Char} (hm : m = 'e' ∨ m = 'E')
    (hs : s = none ∨ s = some '+' ∨ s = some '-') (he : Literal.Digits1 e) :
    scanExp (m :: (s.toList ++ e)) = some (some (decide (s = some '-'), e), []) := by
  rw [scanExp, if_pos hm, scanSign_literal hs he]
  simp only
  rw [digits_of he]; rfl

/-- a literal is scanned to its end -/
theorem scanNumber_literal (x : Literal) (h : x.WF) : scanNumber x.text = some (x.number, []) := by
  obtain ⟨minus, int, frac, exp⟩ := x
  have hm := scanMinus_literal _ h
  obtain ⟨h1, h0, h2, h3⟩ := h
  simp only at h1 h0 h2 h3 hm
  simp only [Literal.text, scanNumber, hm, Literal.number]
  cases frac with
  | none =>
    cases exp with
    | none =>
      simp only [List.append_nil]
      rw [scanInt_of h1 h0]
      rfl
    | some y =>
      obtain ⟨m, s, e⟩ := y
      obtain ⟨k1, k2, k3⟩ := h3 m s e rfl
      have hd : isDigit m = false := by rcases k1 with rfl | rfl <;> decide
      have hp : m ≠ '.' := by rcases k1 with rfl | rfl <;> decide
      simp only [List.nil_append]
      rw [scanInt_stop hd h1 h0]
      simp only [scanFrac, if_neg hp]
      rw [scanExp_literal k1 k2 k3]
      rfl
  | some f =>
    have hf := h2 f rfl
    simp only [List.cons_append]
    rw [scanInt_stop (by decide) h1 h0]
    simp only [scanFrac, if_true]
    cases exp with
    | none =>
      simp only [List.append_nil]
      rw [digits_of hf]
      rfl
    | some y =>
      obtain ⟨m, s, e⟩ := y
      obtain ⟨k1, k2, k3⟩ := h3 m s e rfl
      have hd : isDigit m = false := by rcases k1 with rfl | rfl <;> decide
      simp only
      rw [digits_stop hd (digits_of hf)]
      simp only [Option.map]
      rw [scanExp_literal k1 k2 k3]

theorem literal_value (x : Literal) : x.number.toDbl = x.value := by
  obtain ⟨minus, int, frac, exp⟩ := x
  simp only [Number.toDbl, Literal.value, Literal.number, Number.mantissa, Number.exponent, Literal.exponent]
  cases exp with
  | none => rfl
  | some y =>
    obtain ⟨m, s, e⟩ := y
    simp only [Option.map, decide_eq_true_eq]

/-- what the contract says, for the scanner -/
theorem Digits.Lawful.scan {dg : Digits} (hd : dg.Lawful) (neg : Bool) (u : Nat) (hr : (Dbl.fin neg u).Representable) :
    ∃ x, scanNumber (dg.text (.fin neg u)) = some (x, []) ∧ x.isFloat = true ∧ x.toDbl = .fin neg u := by
  obtain ⟨x, hw, ht, hf, hv⟩ := hd neg u hr
  refine ⟨x.number, by rw [ht]; exact scanNumber_literal x hw, ?_, by rw [literal_value]; exact hv⟩
  rw [← hf]
  simp only [Number.isFloat, Literal.number]
  cases x.exp <;> rfl

theorem scanNumber_second {t : List Char} {x} (h : scanNumber ('-' :: t) = some x) : ∃ c r, t = c :: r ∧ isDigit c = true := by
  simp only [scanNumber] at h
  split at h
  · cases h
  · rename_i i r1 h1
    simp only [scanMinus, if_true] at h1
    cases t with
    | nil => cases h1
    | cons c r => exact ⟨c, r, rfl, scanInt_head h1⟩

/-- a number is no keyword -/
theorem parseAtom_number {lib : Lib} {t r : List Char} {x : Number} (h : scanNumber t = some (x, r)) :
    parseAtom lib t = (numberValue lib x).map fun j => (j, r) := by
  cases t with
  | nil => simp [scanNumber, scanMinus, scanInt] at h
  | cons c t =>
    have hh := scanNumber_head h
    have k1 : 'n' ≠ c := by rintro rfl; revert hh; decide
    have k2 : 't' ≠ c := by rintro rfl; revert hh; decide
    have k3 : 'f' ≠ c := by rintro rfl; revert hh; decide
    have k4 : 'N' ≠ c := by rintro rfl; revert hh; decide
    have k5 : 'I' ≠ c := by rintro rfl; revert hh; decide
    have k6 : keyword ['-', 'I', 'n', 'f', 'i', 'n', 'i', 't', 'y'] (c :: t) = none := by
      by_cases hc : '-' = c
      · subst hc
        obtain ⟨d, r, rfl, hd⟩ := scanNumber_second h
        have : 'I' ≠ d := by rintro rfl; revert hd; decide
        simp [keyword, this]
      · exact keyword_head hc
    simp only [parseAtom, keyword_head k1, keyword_head k2, keyword_head k3, keyword_head k4, keyword_head k5, k6, h, ite_self]
    cases numberValue lib x <;> rfl

/-! ### white space -/

/-- only white space -/
def Ws (t : List Char) : Prop := ∀ c ∈ t, isWs c = true

theorem skipWs_ws {w : List Char} (h : Ws w) (t : List Char) : skipWs (w ++ t) = skipWs t := by
  induction w with
  | nil => rfl
  | cons c w ih =>
    rw [List.cons_append, skipWs, if_pos (h c (by simp))]
    exact ih fun c hc => h c (by simp [hc])

theorem parseValue_skip {lib : Lib} {n : Nat} {w t : List Char} (h : Ws w) : parseValue lib n (w ++ t) = parseValue lib n t := by
  cases n with
  | zero => simp [parseValue]
  | succ n => simp only [parseValue, skipWs_ws h]

theorem expect_skip {x : Char} {w t : List Char} (h : Ws w) : expect x (w ++ t) = expect x t := by
  simp only [expect, skipWs_ws h]

theorem parseElems_skip {lib : Lib} {n : Nat} {acc} {w t : List Char} (h : Ws w) :
    parseElems lib n acc (w ++ t) = parseElems lib n acc t := by
  cases n with
  | zero => simp [parseElems]
  | succ n => simp only [parseElems, parseValue_skip h]

theorem parseMembers_skip {lib : Lib} {n : Nat} {acc} {w t : List Char} (h : Ws w) :
    parseMembers lib n acc (w ++ t) = parseMembers lib n acc t := by
  cases n with
  | zero => simp [parseMembers]
  | succ n => simp only [parseMembers, expect_skip h]

theorem expect_here {x : Char} {r : List Char} (h : isWs x = false) : expect x (x :: r) = some r := by
  simp [expect, skipWs, h]

theorem expect_other {x c : Char} {r : List Char} (h : isWs c = false) (hc : c ≠ x) : expect x (c :: r) = none := by
  simp [expect, skipWs, h, hc]

/-- commas and colons are followed by white space only -/
def Style.Ok (st : Style) : Prop := Ws st.comma ∧ Ws st.colon

theorem newline_ws (st : Style) (k : Nat) : Ws (newline st k) := by
  simp only [newline]
  split
  · intro c hc; cases hc
  · intro c hc
    rcases List.mem_cons.1 hc with rfl | hc
    · decide
    · rw [List.eq_of_mem_replicate hc]; decide

/-- what can follow a value in a container -/
theorem stops_newline (st : Style) (k : Nat) {c : Char} {r : List Char} (h : isNum c = false) : Stops (newline st k ++ c :: r) := by
  simp only [newline]
  split
  · exact h
  · show isNum '\n' = false
    decide

/-! ### values -/

/-- a value begins neither with white space nor with a closing bracket nor outside of ASCII -/
theorem write_head {st : Style} {dg : Digits} (hd : dg.Lawful) {k : Nat} {j : Json} (hv : Valid j) :
    ∃ c r, write st dg k j = c :: r ∧ isWs c = false ∧ c ≠ ']' ∧ c ≠ '}' ∧ c.toNat < 128 := by
  have num : ∀ {t : List Char} {x : Number × List Char}, scanNumber t = some x →
      ∃ c r, t = c :: r ∧ isWs c = false ∧ c ≠ ']' ∧ c ≠ '}' ∧ c.toNat < 128 := by
    intro t x h
    cases t with
    | nil => simp [scanNumber, scanMinus, scanInt] at h
    | cons c r =>
      refine ⟨c, r, rfl, ?_⟩
      rcases scanNumber_head h with h | rfl
      · refine ⟨?_, ?_, ?_, ?_⟩
        · cases hw : isWs c with
          | false => rfl
          | true =>
            simp only [isWs, Bool.or_eq_true, decide_eq_true_eq] at hw
            rcases hw with ((rfl | rfl) | rfl) | rfl <;> revert h <;> decide
        · rintro rfl; revert h; decide
        · rintro rfl; revert h; decide
        · simp only [isDigit, Bool.and_eq_true, decide_eq_true_eq] at h
          have := h.2
          have e : '9'.toNat = 57 := rfl
          omega
      · decide
  cases j with
  | null => exact ⟨_, _, rfl, by decide⟩
  | bool b => cases b <;> exact ⟨_, _, rfl, by decide⟩
  | int i => simpa only [write] using num (scanNumber_writeInt i)
  | str s => exact ⟨_, _, rfl, by decide⟩
  | arr l =>
    simp only [write]
    split
    · exact ⟨_, _, rfl, by decide⟩
    · exact ⟨_, _, rfl, by decide⟩
  | obj l =>
    simp only [write]
    split
    · exact ⟨_, _, rfl, by decide⟩
    · exact ⟨_, _, rfl, by decide⟩
  | float d =>
    simp only [write, writeDbl]
    cases d with
    | fin neg u =>
      obtain ⟨x, hx, _⟩ := hd.scan neg u hv
      exact num hx
    | nan => cases st.lib <;> exact ⟨_, _, rfl, by decide⟩
    | inf neg => cases st.lib <;> cases neg <;> exact ⟨_, _, rfl, by decide⟩

/-- a value that begins with none of `{ [ "` -/
theorem parseValue_atom {lib : Lib} {n : Nat} {c : Char} {r : List Char} (hw : isWs c = false)
    (h1 : c ≠ '{') (h2 : c ≠ '[') (h3 : c ≠ '"') : parseValue lib (n + 1) (c :: r) = parseAtom lib (c :: r) := by
  simp [parseValue, skipWs, hw, h1, h2, h3]

theorem parseValue_number {lib : Lib} {n : Nat} {t r : List Char} {x : Number} (h : scanNumber t = some (x, [])) (hr : Stops r) :
    parseValue lib (n + 1) (t ++ r) = (numberValue lib x).map fun j => (j, r) := by
  have h' := scanNumber_append (.inr hr) h
  rw [List.nil_append] at h'
  rw [← parseAtom_number h']
  cases t with
  | nil => simp [scanNumber, scanMinus, scanInt] at h
  | cons c t =>
    have hh := scanNumber_head h
    rw [List.cons_append]
    refine parseValue_atom ?_ ?_ ?_ ?_
    · cases hw : isWs c with
      | false => rfl
      | true =>
        simp only [isWs, Bool.or_eq_true, decide_eq_true_eq] at hw
        rcases hw with ((rfl | rfl) | rfl) | rfl <;> revert hh <;> decide
    · rintro rfl; revert hh; decide
    · rintro rfl; revert hh; decide
    · rintro rfl; revert hh; decide

theorem parseValue_dbl {st : Style} {dg : Digits} (hd : dg.Lawful) {lib : Lib} {n : Nat} {d : Dbl} {r : List Char}
    (hv : d.Representable) (hr : Stops r) :
    parseValue lib (n + 1) (writeDbl st.lib dg d ++ r) = (receivedDbl st.lib lib d).map fun j => (j, r) := by
  cases d with
  | fin neg u =>
    obtain ⟨x, hx, hf, hx'⟩ := hd.scan neg u hv
    simp only [writeDbl, receivedDbl]
    rw [parseValue_number hx hr]
    cases lib <;> simp [numberValue, hf, hx']
  | nan => cases st.lib <;> cases lib <;>
      simp [writeDbl, receivedDbl, parseValue, skipWs, isWs, parseAtom, keyword, scanNumber, scanMinus, scanInt, digits1, digits,
        isDigit]
  | inf neg => cases st.lib <;> cases lib <;> cases neg <;>
      simp [writeDbl, receivedDbl, parseValue, skipWs, isWs, parseAtom, keyword, scanNumber, scanMinus, scanInt, digits1, digits,
        isDigit]

theorem assocSet_new {β : Type} {l : List (String × β)} {k : String} {v : β} (h : k ∉ l.map (·.1)) :
    assocSet l k v = l ++ [(k, v)] := by
  induction l with
  | nil => rfl
  | cons p l ih =>
    obtain ⟨a, b⟩ := p
    simp only [List.map_cons, List.mem_cons, not_or] at h
    rw [assocSet, if_neg (Ne.symm h.1), ih h.2]; rfl

mutual

theorem parse_write {st : Style} {dg : Digits} {lib : Lib} (hs : st.Ok) (hd : dg.Lawful) :
    ∀ (j : Json) (n k : Nat) (r : List Char), Valid j → Stops r → (write st dg k j).length < n →
      parseValue lib n (write st dg k j ++ r) = (received st.lib lib j).map fun j => (j, r)
  | .null, n, k, r, hv, hr, hn => by
    cases n with
    | zero => cases hn
    | succ n => simp [write, received, parseValue, skipWs, isWs, parseAtom, keyword]
  | .bool b, n, k, r, hv, hr, hn => by
    cases n with
    | zero => cases hn
    | succ n => cases b <;> simp [write, received, parseValue, skipWs, isWs, parseAtom, keyword]
  | .int i, n, k, r, hv, hr, hn => by
    cases n with
    | zero => cases hn
    | succ n =>
      simp only [write, received]
      rw [parseValue_number (scanNumber_writeInt i) hr, numberValue_int]
  | .float d, n, k, r, hv, hr, hn => by
    cases n with
    | zero => cases hn
    | succ n =>
      simp only [write, received]
      exact parseValue_dbl hd hv hr
  | .str s, n, k, r, hv, hr, hn => by
    cases n with
    | zero => cases hn
    | succ n =>
      have hl := length_writeRest st.ascii s.toList
      simp only [write, writeString, List.length_cons] at hn
      simp only [write, writeString, List.cons_append, parseValue]
      rw [skipWs, if_neg (by decide)]
      simp only [Char.reduceEq, if_false, if_true]
      rw [scanString_writeRest st.ascii s.toList n r (by omega)]
      simp [received]
  | .arr l, n, k, r, hv, hr, hn => by
    cases n with
    | zero => cases hn
    | succ n =>
      cases l with
      | nil =>
        simp [write, received, receivedList, parseValue, skipWs, isWs, expect]
      | cons v l =>
        have hv' : ValidList (v :: l) := hv
        simp only [write, List.isEmpty_cons, Bool.false_eq_true, if_false, List.length_cons, List.length_append,
          List.length_nil] at hn
        simp only [write, List.isEmpty_cons, Bool.false_eq_true, if_false, List.cons_append, List.append_assoc, List.nil_append]
        rw [parseValue]
        rw [skipWs, if_neg (by decide)]
        simp only [Char.reduceEq, if_false, if_true]
        rw [expect_skip (newline_ws _ _), parseElems_skip (newline_ws _ _)]
        have hnone : expect ']' (writeElems st dg (deeper st k) (v :: l) ++ (newline st k ++ ']' :: r)) = none := by
          obtain ⟨c, r', e, hw, hc, _⟩ := write_head (st := st) hd (k := deeper st k) hv'.1
          rw [writeElems, e]
          exact expect_other hw hc
        rw [hnone]
        simp only
        rw [parse_writeElems hs hd (v :: l) n (deeper st k) [] (newline st k) r hv' (by simp) (newline_ws _ _) (stops_newline st k (by decide)) (by omega)]
        simp only [received, List.nil_append]
        cases receivedList st.lib lib (v :: l) <;> rfl
  | .obj l, n, k, r, hv, hr, hn => by
    cases n with
    | zero => cases hn
    | succ n =>
      cases l with
      | nil =>
        simp [write, received, receivedMembers, parseValue, skipWs, isWs, expect]
      | cons v l =>
        have hv' : ((v :: l).map (·.1)).Nodup ∧ ValidMembers (v :: l) := hv
        simp only [write, List.isEmpty_cons, Bool.false_eq_true, if_false, List.length_cons, List.length_append,
          List.length_nil] at hn
        simp only [write, List.isEmpty_cons, Bool.false_eq_true, if_false, List.cons_append, List.append_assoc, List.nil_append]
        rw [parseValue]
        rw [skipWs, if_neg (by decide)]
        simp only [Char.reduceEq, if_false, if_true]
        rw [expect_skip (newline_ws _ _), parseMembers_skip (newline_ws _ _)]
        have hnone : expect '}' (writeMembers st dg (deeper st k) (v :: l) ++ (newline st k ++ '}' :: r)) = none := by
          obtain ⟨key, v⟩ := v
          simp only [writeMembers, writeString, List.cons_append]
          exact expect_other (by decide) (by decide)
        rw [hnone]
        simp only
        rw [parse_writeMembers hs hd (v :: l) n (deeper st k) [] (newline st k) r hv'.2 (by simpa using hv'.1) (by simp)
          (newline_ws _ _) (stops_newline st k (by decide)) (by omega)]
        simp only [received, List.nil_append]
        cases receivedMembers st.lib lib (v :: l) <;> rfl

theorem parse_writeElems {st : Style} {dg : Digits} {lib : Lib} (hs : st.Ok) (hd : dg.Lawful) :
    ∀ (l : List Json) (n k : Nat) (acc : List Json) (w r : List Char), ValidList l → l ≠ [] → Ws w → Stops (w ++ ']' :: r) →
      (writeElems st dg k l).length + 1 < n →
      parseElems lib n acc (writeElems st dg k l ++ (w ++ ']' :: r)) =
        (receivedList st.lib lib l).map fun l => (.arr (acc ++ l), r)
  | [], n, k, acc, w, r, hv, hl, hw, hr, hn => absurd rfl hl
  | v :: l, n, k, acc, w, r, hv, _, hw, hr, hn => by
    cases n with
    | zero => cases hn
    | succ n =>
      obtain ⟨hv1, hv2⟩ : Valid v ∧ ValidList l := hv
      have h1 : 1 ≤ (write st dg k v).length := by
        obtain ⟨c, r', e, _⟩ := write_head (st := st) hd (k := k) hv1
        rw [e]; simp
      cases l with
      | nil =>
        simp only [writeElems, List.isEmpty_nil, if_true, List.append_nil] at hn ⊢
        rw [parseElems, parse_write hs hd v n k _ hv1 hr (by omega)]
        simp only [receivedList]
        cases received st.lib lib v with
        | none => rfl
        | some v' =>
          simp only [Option.map]
          rw [expect_skip hw, expect_skip hw, expect_other (by decide) (by decide), expect_here (by decide)]
      | cons v2 l =>
        have hne : v2 :: l ≠ [] := by simp
        generalize hg : v2 :: l = l2 at *
        have hemp : l2.isEmpty = false := by rw [← hg]; rfl
        simp only [writeElems, hemp, Bool.false_eq_true, if_false, List.length_append, List.length_cons] at hn
        simp only [writeElems, hemp, Bool.false_eq_true, if_false, List.append_assoc, List.cons_append]
        rw [parseElems, parse_write hs hd v n k _ hv1 (by show isNum ',' = false; decide) (by omega)]
        simp only [receivedList]
        cases received st.lib lib v with
        | none => rfl
        | some v' =>
          simp only [Option.map]
          rw [expect_here (by decide)]
          simp only
          rw [parseElems_skip hs.1, parseElems_skip (newline_ws _ _),
            parse_writeElems hs hd l2 n k (acc ++ [v']) w r hv2 hne hw hr (by omega)]
          cases receivedList st.lib lib l2 with
          | none => rfl
          | some l' => simp

theorem parse_writeMembers {st : Style} {dg : Digits} {lib : Lib} (hs : st.Ok) (hd : dg.Lawful) :
    ∀ (l : List (String × Json)) (n k : Nat) (acc : List (String × Json)) (w r : List Char), ValidMembers l →
      ((acc ++ l).map (·.1)).Nodup → l ≠ [] → Ws w → Stops (w ++ '}' :: r) →
      (writeMembers st dg k l).length + 1 < n →
      parseMembers lib n acc (writeMembers st dg k l ++ (w ++ '}' :: r)) =
        (receivedMembers st.lib lib l).map fun l => (.obj (acc ++ l), r)
  | [], n, k, acc, w, r, hv, ha, hl, hw, hr, hn => absurd rfl hl
  | (key, v) :: l, n, k, acc, w, r, hv, ha, _, hw, hr, hn => by
    cases n with
    | zero => cases hn
    | succ n =>
      obtain ⟨hv1, hv2⟩ : Valid v ∧ ValidMembers l := hv
      have hk : key ∉ acc.map (·.1) := by
        intro hm
        rw [List.map_append, List.nodup_append] at ha
        exact ha.2.2 key hm key (by simp) rfl
      have ha' : ∀ v' : Json, (((acc ++ [(key, v')]) ++ l).map (·.1)).Nodup := by
        intro v'; simpa using ha
      have hlen := length_writeRest st.ascii key.toList
      cases l with
      | nil =>
        simp only [writeMembers, writeString, List.isEmpty_nil, if_true, List.append_nil, List.length_append, List.length_cons] at hn
        simp only [writeMembers, writeString, List.isEmpty_nil, if_true, List.append_nil, List.append_assoc, List.cons_append]
        rw [parseMembers, expect_here (by decide)]
        simp only
        rw [scanString_writeRest st.ascii key.toList n _ (by omega)]
        simp only
        rw [expect_here (by decide)]
        simp only
        rw [parseValue_skip hs.2, parse_write hs hd v n k _ hv1 hr (by omega)]
        simp only [receivedMembers]
        cases received st.lib lib v with
        | none => rfl
        | some v' =>
          simp only [Option.map]
          rw [expect_skip hw, expect_skip hw, expect_other (by decide) (by decide), expect_here (by decide)]
          simp only [String.ofList_toList]
          rw [assocSet_new hk]
      | cons v2 l =>
        have hne : v2 :: l ≠ [] := by simp
        generalize hg : v2 :: l = l2 at *
        have hemp : l2.isEmpty = false := by rw [← hg]; rfl
        simp only [writeMembers, writeString, hemp, Bool.false_eq_true, if_false, List.length_append, List.length_cons] at hn
        simp only [writeMembers, writeString, hemp, Bool.false_eq_true, if_false, List.append_assoc, List.cons_append]
        rw [parseMembers, expect_here (by decide)]
        simp only
        rw [scanString_writeRest st.ascii key.toList n _ (by omega)]
        simp only
        rw [expect_here (by decide)]
        simp only
        rw [parseValue_skip hs.2, parse_write hs hd v n k _ hv1 (by show isNum ',' = false; decide) (by omega)]
        simp only [receivedMembers]
        cases received st.lib lib v with
        | none => rfl
        | some v' =>
          simp only [Option.map]
          rw [expect_here (by decide)]
          simp only [String.ofList_toList]
          rw [assocSet_new hk, parseMembers_skip hs.1, parseMembers_skip (newline_ws _ _),
            parse_writeMembers hs hd l2 n k (acc ++ [(key, v')]) w r hv2 (ha' v') hne hw hr (by omega)]
          cases receivedMembers st.lib lib l2 with
          | none => rfl
          | some l' => simp

end

end JsonText

end Z5
