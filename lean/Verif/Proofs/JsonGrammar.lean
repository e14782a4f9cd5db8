import Verif.Spec.JsonGrammar
import Verif.Proofs.JsonDoc

/-!
# The parser accepts the grammar of JSON, and nothing else
-/

namespace Z5

namespace JsonText

theorem blank_iff {w : List Char} : Blank w ↔ Ws w := by
  unfold Blank Ws
  simp only [isWs, Bool.or_eq_true, decide_eq_true_eq, or_assoc]

/-! ### Strings -/

theorem hexVal_of {c : Char} {v : Nat} (h : HexDigit c v) : hexVal c = some v := by
  unfold HexDigit at h
  match v, h with
  | 0, h | 1, h | 2, h | 3, h | 4, h | 5, h | 6, h | 7, h | 8, h | 9, h | 10, h | 11, h | 12, h | 13, h | 14, h | 15, h =>
    rcases h with h | h <;> cases h <;> decide
  | _ + 16, h => rcases h with h | h <;> cases h

theorem of_hexVal {c : Char} {v : Nat} (h : hexVal c = some v) : HexDigit c v := by
  have hc : ∀ n, c.toNat = n → c = Char.ofNat n := fun n e => by rw [← e, Char.ofNat_toNat]
  unfold hexVal at h
  split at h
  · rename_i h1
    have h1 : 48 ≤ c.toNat ∧ c.toNat ≤ 57 := h1
    have : c.toNat = 48 ∨ c.toNat = 49 ∨ c.toNat = 50 ∨ c.toNat = 51 ∨ c.toNat = 52 ∨ c.toNat = 53 ∨ c.toNat = 54 ∨
      c.toNat = 55 ∨ c.toNat = 56 ∨ c.toNat = 57 := by omega
    rcases this with e | e | e | e | e | e | e | e | e | e <;>
      (have := hc _ e; subst this; cases h; exact .inl rfl)
  · split at h
    · rename_i h1
      have h1 : 97 ≤ c.toNat ∧ c.toNat ≤ 102 := h1
      have : c.toNat = 97 ∨ c.toNat = 98 ∨ c.toNat = 99 ∨ c.toNat = 100 ∨ c.toNat = 101 ∨ c.toNat = 102 := by omega
      rcases this with e | e | e | e | e | e <;>
        (have := hc _ e; subst this; cases h; exact .inl rfl)
    · split at h
      · rename_i h1
        have h1 : 65 ≤ c.toNat ∧ c.toNat ≤ 70 := h1
        have : c.toNat = 65 ∨ c.toNat = 66 ∨ c.toNat = 67 ∨ c.toNat = 68 ∨ c.toNat = 69 ∨ c.toNat = 70 := by omega
        rcases this with e | e | e | e | e | e <;>
          (have := hc _ e; subst this; cases h; exact .inr rfl)
      · cases h

theorem hex4_of {h : List Char} {n : Nat} (hh : Hex4 h n) (r : List Char) : hex4 (h ++ r) = some (n, r) := by
  obtain ⟨a, b, c, d, w, x, y, z, rfl, h1, h2, h3, h4, rfl⟩ := hh
  simp only [List.cons_append, List.nil_append, hex4, hexVal_of h1, hexVal_of h2, hexVal_of h3, hexVal_of h4,
    Option.some.injEq, Prod.mk.injEq, and_true]
  omega

theorem of_hex4 {t r : List Char} {n : Nat} (e : hex4 t = some (n, r)) : ∃ h, Hex4 h n ∧ t = h ++ r := by
  match t with
  | [] | [_] | [_, _] | [_, _, _] => cases e
  | a :: b :: c :: d :: t =>
    simp only [hex4] at e
    split at e
    · rename_i w x y z h1 h2 h3 h4
      cases e
      exact ⟨[a, b, c, d], ⟨a, b, c, d, w, x, y, z, rfl, of_hexVal h1, of_hexVal h2, of_hexVal h3, of_hexVal h4, by omega⟩, rfl⟩
    · cases e

theorem toNat_ofNat {n : Nat} (h : n < 0xD800 ∨ (0xDFFF < n ∧ n < 0x110000)) : (Char.ofNat n).toNat = n := by
  have hv : n.isValidChar := h
  simp only [Char.ofNat, dif_pos hv]
  rfl

theorem scanUnicode_of {t r : List Char} {x : Option Char} (e : scanUnicode t = some (x, r)) :
    ∃ c u, x = some c ∧ CharText ('\\' :: 'u' :: u) c ∧ t = u ++ r := by
  simp only [scanUnicode] at e
  split at e
  · cases e
  · rename_i v r1 h1
    obtain ⟨h, hh, rfl⟩ := of_hex4 h1
    have hn : v < 65536 := by
      obtain ⟨a, b, c, d, w, x, y, z, _, k1, k2, k3, k4, rfl⟩ := hh
      have lt : ∀ {c v}, HexDigit c v → v < 16 := by
        intro c v h
        rcases h with h | h <;> exact (List.getElem?_eq_some_iff.1 h).1
      have := lt k1; have := lt k2; have := lt k3; have := lt k4
      omega
    split at e
    · rename_i hv
      split at e
      · rename_i x y r2
        split at e
        · rename_i hxy
          obtain ⟨rfl, rfl⟩ := hxy
          split at e
          · cases e
          · rename_i w r3 h3
            obtain ⟨l, hl, rfl⟩ := of_hex4 h3
            split at e
            · rename_i hw
              cases e
              refine ⟨_, h ++ '\\' :: 'u' :: l, rfl, ?_, by simp⟩
              exact CharText.surrogates hh hl hv.1 hv.2 hw.1 hw.2 (toNat_ofNat (.inr (by omega)))
            · cases e
        · cases e
      · cases e
    · split at e
      · cases e
      · cases e
        refine ⟨_, h, rfl, .unicode ?_, rfl⟩
        rw [toNat_ofNat (by omega)]
        exact hh

theorem scanChar_of {t r : List Char} {x : Option Char} (e : scanChar t = some (x, r)) :
    (x = none ∧ t = '"' :: r) ∨ ∃ c u, x = some c ∧ CharText u c ∧ t = u ++ r := by
  cases t with
  | nil => cases e
  | cons c t =>
    simp only [scanChar] at e
    split at e
    · rename_i hc
      cases e
      exact .inl ⟨rfl, by rw [hc]⟩
    · rename_i hc
      split at e
      · rename_i hb
        subst hb
        refine .inr ?_
        cases t with
        | nil => cases e
        | cons d t =>
          simp only [scanEscape] at e
          have key : ∀ (d c : Char), (d, c.toNat) ∈ shortEscapes →
              ∃ c' u, some c = some c' ∧ CharText u c' ∧ '\\' :: d :: r = u ++ r :=
            fun d c h => ⟨c, ['\\', d], rfl, .short h, rfl⟩
          split at e
          · rename_i hd
            cases e
            exact key _ _ (by rcases hd with rfl | rfl | rfl <;> decide)
          · split at e
            · rename_i hd; cases e; subst hd; exact key _ _ (by decide)
            · split at e
              · rename_i hd; cases e; subst hd; exact key _ _ (by decide)
              · split at e
                · rename_i hd; cases e; subst hd; exact key _ _ (by decide)
                · split at e
                  · rename_i hd; cases e; subst hd; exact key _ _ (by decide)
                  · split at e
                    · rename_i hd; cases e; subst hd; exact key _ _ (by decide)
                    · split at e
                      · rename_i hd
                        subst hd
                        obtain ⟨c', u, rfl, h1, rfl⟩ := scanUnicode_of e
                        exact ⟨c', _, rfl, h1, rfl⟩
                      · cases e
      · rename_i hb
        split at e
        · cases e
        · rename_i h20
          cases e
          exact .inr ⟨c, [c], rfl, .unescaped hc hb (by omega), rfl⟩

theorem of_charText {u : List Char} {c : Char} (h : CharText u c) (r : List Char) :
    scanChar (u ++ r) = some (some c, r) := by
  have hc : ∀ n, c.toNat = n → Char.ofNat n = c := fun n e => by rw [← e, Char.ofNat_toNat]
  cases h with
  | unescaped h1 h2 h3 =>
    simp only [List.cons_append, List.nil_append, scanChar, if_neg h1, if_neg h2, if_neg (Nat.not_lt.2 h3)]
  | short h =>
    simp only [shortEscapes, List.mem_cons, Prod.mk.injEq, List.not_mem_nil, or_false] at h
    rcases h with ⟨rfl, e⟩ | ⟨rfl, e⟩ | ⟨rfl, e⟩ | ⟨rfl, e⟩ | ⟨rfl, e⟩ | ⟨rfl, e⟩ | ⟨rfl, e⟩ | ⟨rfl, e⟩ <;>
      (rw [← hc _ e]; rfl)
  | @unicode h _ hh =>
    show scanEscape ('u' :: (h ++ r)) = _
    show scanUnicode (h ++ r) = _
    simp only [scanUnicode]
    rw [hex4_of hh]
    have := char_valid c
    simp only
    rw [if_neg (by omega), if_neg (by omega), hc _ rfl]
  | @surrogates h l v w _ hh hl h1 h2 h3 h4 e =>
    show scanUnicode ((h ++ '\\' :: 'u' :: l) ++ r) = _
    simp only [scanUnicode, List.append_assoc]
    rw [hex4_of hh]
    simp only [List.cons_append]
    rw [if_pos ⟨h1, h2⟩, if_pos (by exact ⟨trivial, trivial⟩), hex4_of hl]
    simp only
    rw [if_pos ⟨h3, h4⟩, hc _ e]

theorem charText_length {u : List Char} {c : Char} (h : CharText u c) : 1 ≤ u.length := by
  cases h <;> simp

theorem scanString_of : ∀ {n : Nat} {t r s : List Char}, scanString n t = some (s, r) →
    ∃ u, StringText u s ∧ t = u ++ '"' :: r
  | 0, t, r, s, e => by cases e
  | n + 1, t, r, s, e => by
    simp only [scanString] at e
    split at e
    · cases e
    · rename_i r1 h1
      cases e
      rcases scanChar_of h1 with ⟨_, rfl⟩ | ⟨c, u, hc, _⟩
      · exact ⟨[], .nil, rfl⟩
      · cases hc
    · rename_i c r1 h1
      split at e
      · cases e
      · rename_i s' r2 h2
        cases e
        rcases scanChar_of h1 with ⟨hc, _⟩ | ⟨c', u, hc, hu, rfl⟩
        · cases hc
        · cases hc
          obtain ⟨u', hu', rfl⟩ := scanString_of h2
          exact ⟨u ++ u', .cons hu hu', by simp⟩

theorem of_stringText {u s : List Char} (h : StringText u s) : ∀ {n : Nat} (r : List Char), u.length < n →
    scanString n (u ++ '"' :: r) = some (s, r) := by
  induction h with
  | nil =>
    intro n r hn
    cases n with
    | zero => cases hn
    | succ n => rfl
  | @cons t u s c hc _ ih =>
    intro n r hn
    have hl := charText_length hc
    rw [List.length_append] at hn
    cases n with
    | zero => cases hn
    | succ n =>
      rw [List.append_assoc, scanString, of_charText hc]
      simp only
      rw [ih r (by omega)]

/-! ### Numbers -/

theorem digits_inv : ∀ (t : List Char), t = (digits t).1 ++ (digits t).2 ∧ ∀ c ∈ (digits t).1, isDigit c = true
  | [] => ⟨rfl, by intro c hc; cases hc⟩
  | c :: t => by
    obtain ⟨h1, h2⟩ := digits_inv t
    simp only [digits]
    split
    · rename_i hc
      refine ⟨by rw [List.cons_append, ← h1], fun d hd => ?_⟩
      rcases List.mem_cons.1 hd with rfl | hd
      · exact hc
      · exact h2 d hd
    · exact ⟨rfl, by intro d hd; cases hd⟩

theorem digits1_inv {t l r : List Char} (e : digits1 t = some (l, r)) : t = l ++ r ∧ Literal.Digits1 l := by
  simp only [digits1] at e
  split at e
  · cases e
  · rename_i hne
    obtain ⟨h1, h2⟩ := digits_inv t
    have e := Option.some.inj e
    rw [e] at h1 h2 hne
    refine ⟨h1, by simpa using hne, fun c hc => ?_⟩
    have := h2 c hc
    simpa only [isDigit, Bool.and_eq_true, decide_eq_true_eq] using this

theorem scanInt_inv {t l r : List Char} (e : scanInt t = some (l, r)) :
    t = l ++ r ∧ Literal.Digits1 l ∧ (l = ['0'] ∨ l.head? ≠ some '0') := by
  cases t with
  | nil => cases e
  | cons c t =>
    simp only [scanInt] at e
    split at e
    · rename_i hc
      cases e
      subst hc
      exact ⟨rfl, ⟨by decide, by decide⟩, .inl rfl⟩
    · rename_i hc
      obtain ⟨h1, h2⟩ := digits1_inv e
      refine ⟨h1, h2, .inr ?_⟩
      cases l with
      | nil => exact absurd rfl h2.1
      | cons d l =>
        cases h1
        simpa using hc

/-- the text of a fraction -/
def fracText : Option (List Char) → List Char
  | none => []
  | some f => '.' :: f

/-- the text of an exponent -/
def expText : Option (Char × Option Char × List Char) → List Char
  | none => []
  | some (m, s, e) => m :: (s.toList ++ e)

theorem scanFrac_inv {t r : List Char} {f : Option (List Char)} (e : scanFrac t = some (f, r)) :
    t = fracText f ++ r ∧ ∀ g, f = some g → Literal.Digits1 g := by
  cases t with
  | nil => cases e; exact ⟨rfl, by intro g hg; cases hg⟩
  | cons c t =>
    simp only [scanFrac] at e
    split at e
    · rename_i hc
      subst hc
      obtain ⟨⟨l, r'⟩, h1, h2⟩ := Option.map_eq_some_iff.1 e
      cases h2
      obtain ⟨rfl, h2⟩ := digits1_inv h1
      exact ⟨rfl, by intro g hg; cases hg; exact h2⟩
    · cases e; exact ⟨rfl, by intro g hg; cases hg⟩

theorem scanExp_inv {t r : List Char} {x : Option (Bool × List Char)} (e : scanExp t = some (x, r)) :
    ∃ y : Option (Char × Option Char × List Char),
      t = expText y ++ r ∧
      x = y.map (fun z => (decide (z.2.1 = some '-'), z.2.2)) ∧
      ∀ m s e, y = some (m, s, e) → (m = 'e' ∨ m = 'E') ∧ (s = none ∨ s = some '+' ∨ s = some '-') ∧ Literal.Digits1 e := by
  cases t with
  | nil => cases e; exact ⟨none, rfl, rfl, by intro m s e h; cases h⟩
  | cons c t =>
    simp only [scanExp] at e
    split at e
    · rename_i hc
      obtain ⟨⟨l, r'⟩, h1, h2⟩ := Option.map_eq_some_iff.1 e
      cases h2
      obtain ⟨h3, h4⟩ := digits1_inv h1
      have hs : ∃ s : Option Char, t = s.toList ++ (scanSign t).2 ∧ (scanSign t).1 = decide (s = some '-') ∧
          (s = none ∨ s = some '+' ∨ s = some '-') := by
        cases t with
        | nil => exact ⟨none, rfl, rfl, .inl rfl⟩
        | cons d t =>
          simp only [scanSign]
          split
          · rename_i hd; subst hd; exact ⟨some '-', rfl, rfl, .inr (.inr rfl)⟩
          · split
            · rename_i hd; subst hd; exact ⟨some '+', rfl, rfl, .inr (.inl rfl)⟩
            · exact ⟨none, rfl, rfl, .inl rfl⟩
      obtain ⟨s, h5, h6, h7⟩ := hs
      refine ⟨some (c, s, l), ?_, ?_, ?_⟩
      · simp only [expText, List.cons_append, List.append_assoc]
        rw [← h3, ← h5]
      · simp only [Option.map_some, h6]
      · intro m s' e' h
        cases h
        exact ⟨hc, h7, h4⟩
    · cases e; exact ⟨none, rfl, rfl, by intro m s e h; cases h⟩

theorem scanNumber_of {t r : List Char} {x : Number} (e : scanNumber t = some (x, r)) :
    ∃ y : Literal, y.WF ∧ t = y.text ++ r ∧ x = y.number := by
  simp only [scanNumber] at e
  split at e
  · cases e
  · rename_i i r1 h1
    split at e
    · cases e
    · rename_i f r2 h2
      split at e
      · cases e
      · rename_i x' r3 h3
        cases e
        obtain ⟨e1, w1, w2⟩ := scanInt_inv h1
        obtain ⟨e2, w3⟩ := scanFrac_inv h2
        obtain ⟨y, e3, rfl, w4⟩ := scanExp_inv h3
        refine ⟨⟨(scanMinus t).1, i, f, y⟩, ⟨w1, w2, w3, w4⟩, ?_, ?_⟩
        · have e0 : t = (if (scanMinus t).1 then ['-'] else []) ++ (scanMinus t).2 := by
            cases t with
            | nil => rfl
            | cons c t =>
              simp only [scanMinus]
              split
              · rename_i hc; rw [hc]; rfl
              · rfl
          conv => lhs; rw [e0, e1, e2, e3]
          simp only [Literal.text, List.append_assoc]
          cases f <;> cases y <;> rfl
        · rfl

theorem numberValue_cpp {t : Number} {j : Json} : numberValue .cpp t = some j ↔
    (t.isFloat = false ∧ Fits t.toInt ∧ j = .int t.toInt) ∨
    (¬ (t.isFloat = false ∧ Fits t.toInt) ∧ ∃ neg u, t.toDbl = .fin neg u ∧ j = .float (.fin neg u)) := by
  unfold numberValue Fits
  dsimp only
  generalize t.toDbl = d
  generalize t.toInt = i
  have hc : ((!t.isFloat && @decide (-2 ^ 63 ≤ i ∧ i < 2 ^ 64) instDecidableAnd) = true) ↔ (t.isFloat = false ∧ (-2 ^ 63 ≤ i ∧ i < 2 ^ 64)) := by
    rw [Bool.and_eq_true, decide_eq_true_iff, Bool.not_eq_true']
  by_cases h : t.isFloat = false ∧ (-2 ^ 63 ≤ i ∧ i < 2 ^ 64)
  · rw [if_pos (hc.2 h)]
    constructor
    · intro e; cases e; exact .inl ⟨h.1, h.2, rfl⟩
    · rintro (⟨_, _, rfl⟩ | ⟨h', _⟩)
      · rfl
      · exact absurd h h'
  · rw [if_neg (fun e => h (hc.1 e))]
    refine Iff.trans (b := ∃ neg u, d = .fin neg u ∧ j = .float (.fin neg u)) ?_ ?_
    · cases d with
      | fin neg u =>
        constructor
        · intro h; cases h; exact ⟨_, _, rfl, rfl⟩
        · rintro ⟨_, _, h, rfl⟩; cases h; rfl
      | _ => exact ⟨(by intro h; cases h), (by rintro ⟨_, _, h, _⟩; cases h)⟩
    constructor
    · intro e; exact .inr ⟨h, e⟩
    · rintro (⟨h1, h2, _⟩ | ⟨_, e⟩)
      · exact absurd ⟨h1, h2⟩ h
      · exact e

theorem literal_integer (x : Literal) : x.integer = if x.number.isFloat then none else some x.number.toInt := by
  obtain ⟨m, i, f, e⟩ := x
  cases f <;> cases e <;> rfl

theorem numberValue_iff {lib : Lib} {x : Literal} {j : Json} : numberValue lib x.number = some j ↔ x.Means lib j := by
  have hi := literal_integer x
  have hd := literal_value x
  cases lib with
  | cpp =>
    rw [numberValue_cpp, hd]
    unfold Literal.Means
    dsimp only
    rw [hi]
    generalize x.value = d
    generalize x.number.toInt = n
    cases x.number.isFloat <;> simp
  | py =>
    unfold numberValue Literal.Means
    dsimp only
    rw [hi, hd]
    generalize x.value = d
    generalize x.number.toInt = n
    cases x.number.isFloat <;> simp [eq_comm]

/-! ### Values -/

theorem keyword_of : ∀ {w t r : List Char}, keyword w t = some r → t = w ++ r
  | [], t, r, e => by cases e; rfl
  | c :: w, [], r, e => by cases e
  | c :: w, d :: t, r, e => by
    simp only [keyword] at e
    split at e
    · rename_i hc
      subst hc
      rw [keyword_of e]
      rfl
    · cases e

/-- a keyword that only Python knows -/
theorem keyword_py {lib : Lib} {w t r : List Char} (e : (if lib = .py then keyword w t else none) = some r) : lib = .py ∧ t = w ++ r := by
  split at e
  · rename_i h; exact ⟨h, keyword_of e⟩
  · cases e

theorem parseAtom_of {lib : Lib} {t r : List Char} {j : Json} (e : parseAtom lib t = some (j, r)) :
    ∃ v, Denotes lib v j ∧ t = v ++ r := by
  simp only [parseAtom] at e
  split at e
  · rename_i h; cases e; exact ⟨_, .null, keyword_of h⟩
  split at e
  · rename_i h; cases e; exact ⟨_, .true, keyword_of h⟩
  split at e
  · rename_i h; cases e; exact ⟨_, .false, keyword_of h⟩
  split at e
  · rename_i h; cases e; exact ⟨_, .nan (keyword_py h).1, (keyword_py h).2⟩
  split at e
  · rename_i h; cases e; exact ⟨_, .infinity (keyword_py h).1, (keyword_py h).2⟩
  split at e
  · rename_i h; cases e; exact ⟨_, .negInfinity (keyword_py h).1, (keyword_py h).2⟩
  split at e
  · cases e
  · rename_i x r1 h
    split at e
    · cases e
    · rename_i j' hj
      cases e
      obtain ⟨y, h1, h2, rfl⟩ := scanNumber_of h
      exact ⟨_, .number h1 (numberValue_iff.1 hj), h2⟩

theorem skipWs_inv : ∀ (t : List Char), ∃ w, Blank w ∧ t = w ++ skipWs t
  | [] => ⟨[], (by intro c hc; cases hc), rfl⟩
  | c :: t => by
    simp only [skipWs]
    split
    · rename_i hc
      obtain ⟨w, h1, h2⟩ := skipWs_inv t
      refine ⟨c :: w, ?_, by rw [List.cons_append, ← h2]⟩
      rw [blank_iff] at h1 ⊢
      intro d hd
      rcases List.mem_cons.1 hd with rfl | hd
      · exact hc
      · exact h1 d hd
    · exact ⟨[], (by intro c hc; cases hc), rfl⟩

theorem expect_of {x : Char} {t r : List Char} (e : expect x t = some r) : ∃ w, Blank w ∧ t = w ++ x :: r := by
  obtain ⟨w, h1, h2⟩ := skipWs_inv t
  simp only [expect] at e
  split at e
  · cases e
  · rename_i c r1 h
    split at e
    · rename_i hc
      cases e
      subst hc
      rw [h] at h2
      exact ⟨w, h1, h2⟩
    · cases e

/-- what is parsed is in the grammar -/
theorem parse_of {lib : Lib} : ∀ (n : Nat),
    (∀ {t r : List Char} {j : Json}, parseValue lib n t = some (j, r) → ∃ w v, Blank w ∧ Denotes lib v j ∧ t = w ++ (v ++ r)) ∧
    (∀ {acc : List Json} {t r : List Char} {j : Json}, parseElems lib n acc t = some (j, r) →
      ∃ u l, Elements lib u l ∧ j = .arr (acc ++ l) ∧ t = u ++ ']' :: r) ∧
    (∀ {acc : List (String × Json)} {t r : List Char} {j : Json}, parseMembers lib n acc t = some (j, r) →
      ∃ u l, Members lib u l ∧ j = .obj (l.foldl (fun o m => assocSet o m.1 m.2) acc) ∧ t = u ++ '}' :: r)
  | 0 => ⟨(by intro t r j e; simp [parseValue] at e), (by intro acc t r j e; simp [parseElems] at e),
      (by intro acc t r j e; simp [parseMembers] at e)⟩
  | n + 1 => by
    obtain ⟨ih1, ih2, ih3⟩ := parse_of n
    refine ⟨?_, ?_, ?_⟩
    · intro t r j e
      obtain ⟨w, hw, ht⟩ := skipWs_inv t
      simp only [parseValue] at e
      split at e
      · cases e
      · rename_i c r0 h
        rw [h] at ht
        split at e
        · rename_i hc
          subst hc
          split at e
          · rename_i r1 h1
            cases e
            obtain ⟨w', hw', rfl⟩ := expect_of h1
            exact ⟨w, _, hw, .emptyObject hw', by rw [ht]; simp⟩
          · obtain ⟨u, l, h1, rfl, rfl⟩ := ih3 e
            exact ⟨w, _, hw, .object h1, by rw [ht]; simp⟩
        · split at e
          · rename_i hc
            subst hc
            split at e
            · rename_i r1 h1
              cases e
              obtain ⟨w', hw', rfl⟩ := expect_of h1
              exact ⟨w, _, hw, .emptyArray hw', by rw [ht]; simp⟩
            · obtain ⟨u, l, h1, rfl, rfl⟩ := ih2 e
              exact ⟨w, _, hw, .array h1, by rw [ht]; simp⟩
          · split at e
            · rename_i hc
              subst hc
              split at e
              · cases e
              · rename_i s r1 h1
                cases e
                obtain ⟨u, hu, rfl⟩ := scanString_of h1
                exact ⟨w, _, hw, .string hu, by rw [ht]; simp⟩
            · obtain ⟨v, hv, h1⟩ := parseAtom_of e
              exact ⟨w, v, hw, hv, by rw [ht, h1]⟩
    · intro acc t r j e
      simp only [parseElems] at e
      split at e
      · cases e
      · rename_i v r1 h1
        obtain ⟨a, tv, ha, hv, rfl⟩ := ih1 h1
        split at e
        · rename_i r2 h2
          obtain ⟨b, hb, rfl⟩ := expect_of h2
          obtain ⟨u, l, hu, rfl, rfl⟩ := ih2 e
          exact ⟨_, v :: l, .more ha hv hb hu, by simp, by simp⟩
        · split at e
          · rename_i r2 h2
            cases e
            obtain ⟨b, hb, rfl⟩ := expect_of h2
            exact ⟨_, [v], .one ha hv hb, rfl, by simp⟩
          · cases e
    · intro acc t r j e
      simp only [parseMembers] at e
      split at e
      · cases e
      · rename_i r1 h1
        obtain ⟨a, ha, rfl⟩ := expect_of h1
        split at e
        · cases e
        · rename_i k r2 h2
          obtain ⟨u, hu, rfl⟩ := scanString_of h2
          split at e
          · cases e
          · rename_i r3 h3
            obtain ⟨b, hb, rfl⟩ := expect_of h3
            split at e
            · cases e
            · rename_i v r4 h4
              obtain ⟨c, tv, hc, hv, rfl⟩ := ih1 h4
              split at e
              · rename_i r5 h5
                obtain ⟨d, hd, rfl⟩ := expect_of h5
                obtain ⟨u', l, hu', rfl, rfl⟩ := ih3 e
                exact ⟨_, _, .more ha hu hb hc hv hd hu', rfl, by simp⟩
              · split at e
                · rename_i r5 h5
                  cases e
                  obtain ⟨d, hd, rfl⟩ := expect_of h5
                  exact ⟨_, _, .one ha hu hb hc hv hd, rfl, by simp⟩
                · cases e

/-- how a value begins -/
theorem denotes_head {lib : Lib} {t : List Char} {j : Json} (h : Denotes lib t j) :
    ∃ c r, t = c :: r ∧ isWs c = false ∧ c ≠ ']' ∧ c ≠ '}' ∧ c.toNat < 128 := by
  cases h with
  | null | true | false | nan | infinity | negInfinity => exact ⟨_, _, rfl, by decide, by decide, by decide, by decide⟩
  | @number x _ hx _ =>
    obtain ⟨m, i, f, e⟩ := x
    cases m with
    | true => exact ⟨'-', _, rfl, by decide, by decide, by decide, by decide⟩
    | false =>
      have hi := hx.int
      cases i with
      | nil => exact absurd rfl hi.1
      | cons c i =>
        have hc : 48 ≤ c.toNat ∧ c.toNat ≤ 57 := hi.2 c List.mem_cons_self
        refine ⟨c, _, rfl, ?_, ?_, ?_, by omega⟩
        · simp only [isWs, Bool.or_eq_false_iff, decide_eq_false_iff_not]
          refine ⟨⟨⟨?_, ?_⟩, ?_⟩, ?_⟩ <;> (rintro rfl; revert hc; decide)
        · rintro rfl; revert hc; decide
        · rintro rfl; revert hc; decide
  | string | emptyArray | array | emptyObject | object =>
    exact ⟨_, _, rfl, by decide, by decide, by decide, by decide⟩

theorem stops_blank {w : List Char} (h : Blank w) {c : Char} {r : List Char} (hc : isNum c = false) : Stops (w ++ c :: r) := by
  cases w with
  | nil => exact hc
  | cons d w =>
    show isNum d = false
    rcases h d List.mem_cons_self with rfl | rfl | rfl | rfl <;> decide

theorem skipWs_none {c : Char} {r : List Char} (h : isWs c = false) : skipWs (c :: r) = c :: r := by
  simp [skipWs, h]

mutual

/-- what is in the grammar is parsed -/
theorem of_denotes {lib : Lib} {t : List Char} {j : Json} (h : Denotes lib t j) (n : Nat) (r : List Char) (hr : Stops r)
    (hn : t.length ≤ n) : parseValue lib n (t ++ r) = some (j, r) := by
  cases n with
  | zero =>
    obtain ⟨c, r', rfl, _⟩ := denotes_head h
    simp at hn
  | succ n =>
    cases h with
    | null => simp [parseValue, skipWs, isWs, parseAtom, keyword]
    | true => simp [parseValue, skipWs, isWs, parseAtom, keyword]
    | false => simp [parseValue, skipWs, isWs, parseAtom, keyword]
    | nan h => simp [parseValue, skipWs, isWs, parseAtom, keyword, h]
    | infinity h => simp [parseValue, skipWs, isWs, parseAtom, keyword, h]
    | negInfinity h => simp [parseValue, skipWs, isWs, parseAtom, keyword, h]
    | @number x _ hx hj =>
      rw [parseValue_number (scanNumber_literal x hx) hr, numberValue_iff.2 hj]
      rfl
    | @string t s hs =>
      simp only [List.length_cons, List.length_append, List.length_nil] at hn
      simp only [List.cons_append, List.append_assoc, List.nil_append, parseValue]
      rw [skipWs_none (by decide)]
      simp only [Char.reduceEq, if_false, if_true]
      rw [of_stringText hs r (by omega)]
    | @emptyArray w hw =>
      simp only [List.cons_append, List.append_assoc, List.nil_append, parseValue]
      rw [skipWs_none (by decide)]
      simp only [Char.reduceEq, if_false, if_true]
      rw [expect_skip (blank_iff.1 hw), expect_here (by decide)]
    | @emptyObject w hw =>
      simp only [List.cons_append, List.append_assoc, List.nil_append, parseValue]
      rw [skipWs_none (by decide)]
      simp only [if_true]
      rw [expect_skip (blank_iff.1 hw), expect_here (by decide)]
    | @array t l hl =>
      simp only [List.length_cons, List.length_append, List.length_nil] at hn
      simp only [List.cons_append, List.append_assoc, List.nil_append, parseValue]
      rw [skipWs_none (by decide)]
      simp only [Char.reduceEq, if_false, if_true]
      have h0 : expect ']' (t ++ ']' :: r) = none := by
        cases hl with
        | one ha hv hb | more ha hv hb hu =>
          obtain ⟨c, u, rfl, h1, h2, _⟩ := denotes_head hv
          simp only [List.append_assoc, List.cons_append]
          rw [expect_skip (blank_iff.1 ha), expect_other h1 h2]
      rw [h0]
      have := of_elements hl n [] r (by omega)
      simpa using this
    | @object t l hl =>
      simp only [List.length_cons, List.length_append, List.length_nil] at hn
      simp only [List.cons_append, List.append_assoc, List.nil_append, parseValue]
      rw [skipWs_none (by decide)]
      simp only [if_true]
      have h0 : expect '}' (t ++ '}' :: r) = none := by
        cases hl with
        | one ha | more ha =>
          simp only [List.append_assoc, List.cons_append]
          rw [expect_skip (blank_iff.1 ha), expect_other (by decide) (by decide)]
      rw [h0]
      exact of_members hl n [] r (by omega)

theorem of_elements {lib : Lib} {t : List Char} {l : List Json} (h : Elements lib t l) (n : Nat) (acc : List Json)
    (r : List Char) (hn : t.length + 1 ≤ n) : parseElems lib n acc (t ++ ']' :: r) = some (.arr (acc ++ l), r) := by
  cases n with
  | zero => omega
  | succ n =>
    cases h with
    | @one a t b v ha hv hb =>
      simp only [List.length_append] at hn
      simp only [List.append_assoc, parseElems]
      rw [parseValue_skip (blank_iff.1 ha), of_denotes hv n _ (stops_blank hb (by decide)) (by omega)]
      simp only
      rw [expect_skip (blank_iff.1 hb), expect_other (by decide) (by decide), expect_skip (blank_iff.1 hb),
        expect_here (by decide)]
    | @more a t b u v l ha hv hb hu =>
      simp only [List.length_append, List.length_cons] at hn
      simp only [List.append_assoc, List.cons_append, parseElems]
      rw [parseValue_skip (blank_iff.1 ha), of_denotes hv n _ (stops_blank hb (by decide)) (by omega)]
      simp only
      rw [expect_skip (blank_iff.1 hb), expect_here (by decide)]
      simp only
      rw [of_elements hu n _ r (by omega)]
      simp

theorem of_members {lib : Lib} {t : List Char} {l : List (String × Json)} (h : Members lib t l) (n : Nat)
    (acc : List (String × Json)) (r : List Char) (hn : t.length + 1 ≤ n) :
    parseMembers lib n acc (t ++ '}' :: r) = some (.obj (l.foldl (fun o m => assocSet o m.1 m.2) acc), r) := by
  cases n with
  | zero => omega
  | succ n =>
    cases h with
    | @one a k b c t d s v ha hk hb hc hv hd =>
      simp only [List.length_append, List.length_cons] at hn
      simp only [List.append_assoc, List.cons_append, parseMembers]
      rw [expect_skip (blank_iff.1 ha), expect_here (by decide)]
      simp only
      rw [of_stringText hk _ (by omega)]
      simp only
      rw [expect_skip (blank_iff.1 hb), expect_here (by decide)]
      simp only
      rw [parseValue_skip (blank_iff.1 hc), of_denotes hv n _ (stops_blank hd (by decide)) (by omega)]
      simp only
      rw [expect_skip (blank_iff.1 hd), expect_other (by decide) (by decide), expect_skip (blank_iff.1 hd),
        expect_here (by decide)]
      rfl
    | @more a k b c t d u s v l ha hk hb hc hv hd hu =>
      simp only [List.length_append, List.length_cons] at hn
      simp only [List.append_assoc, List.cons_append, parseMembers]
      rw [expect_skip (blank_iff.1 ha), expect_here (by decide)]
      simp only
      rw [of_stringText hk _ (by omega)]
      simp only
      rw [expect_skip (blank_iff.1 hb), expect_here (by decide)]
      simp only
      rw [parseValue_skip (blank_iff.1 hc), of_denotes hv n _ (stops_blank hd (by decide)) (by omega)]
      simp only
      rw [expect_skip (blank_iff.1 hd), expect_here (by decide)]
      simp only
      rw [of_members hu n _ r (by omega)]
      rfl

end

/-! ### Members -/

theorem merged_get (l : List (String × Json)) (k : String) : assocGet (merged l) k = assocGet l.reverse k := by
  have : ∀ (l acc : List (String × Json)), assocGet (l.foldl (fun o m => assocSet o m.1 m.2) acc) k =
      (assocGet l.reverse k).or (assocGet acc k) := by
    intro l
    induction l with
    | nil => intro acc; rfl
    | cons m l ih =>
      intro acc
      rw [List.foldl_cons, ih, List.reverse_cons]
      have h1 : ∀ (a b : List (String × Json)), assocGet (a ++ b) k = (assocGet a k).or (assocGet b k) := by
        intro a b
        induction a with
        | nil => rfl
        | cons x a iha =>
          simp only [List.cons_append, assocGet]
          split
          · rfl
          · exact iha
      have h2 : assocGet (assocSet acc m.1 m.2) k = (assocGet [m] k).or (assocGet acc k) := by
        induction acc with
        | nil => simp [assocSet, assocGet]
        | cons x a iha =>
          simp only [assocSet, assocGet] at iha ⊢
          by_cases e1 : x.1 = m.1 <;> by_cases e2 : m.1 = k <;> by_cases e3 : x.1 = k <;>
            simp_all [assocGet]
      rw [h1, h2, Option.or_assoc]
  rw [merged, this]
  simp [assocGet]

theorem merged_distinct {l : List (String × Json)} (h : (l.map (·.1)).Nodup) : merged l = l := by
  have : ∀ (l acc : List (String × Json)), ((acc ++ l).map (·.1)).Nodup →
      l.foldl (fun o m => assocSet o m.1 m.2) acc = acc ++ l := by
    intro l
    induction l with
    | nil => intro acc _; simp
    | cons m l ih =>
      intro acc h
      have hm : m.1 ∉ acc.map (·.1) := by
        rw [List.map_append, List.map_cons] at h
        intro hm
        exact (List.nodup_append.1 h).2.2 _ hm _ List.mem_cons_self rfl
      rw [List.foldl_cons, assocSet_new hm, ih _ (by simpa using h)]
      simp
  exact this l [] h

/-! ### Bytes -/

end JsonText

namespace Utf8

theorem cont_inv {b : Byte} {n : Nat} (h : cont b = some n) : n < 64 ∧ b = BitVec.ofNat 8 (0x80 + n) := by
  unfold cont at h
  split at h
  · have h := Option.some.inj h
    refine ⟨by omega, ?_⟩
    apply BitVec.eq_of_toNat_eq
    rw [byte_toNat (by omega)]
    omega
  · cases h

theorem byte_eq {b : Byte} {n : Nat} (h : n = b.toNat) : b = BitVec.ofNat 8 n := by rw [h, BitVec.ofNat_toNat, BitVec.setWidth_eq]

/-- what is decoded is UTF-8 -/
theorem decodeChar_of {b r : Bytes} {c : Char} (e : decodeChar b = some (c, r)) : b = encodeChar c ++ r := by
  cases b with
  | nil => cases e
  | cons x b =>
    simp only [decodeChar] at e
    split at e
    · rename_i h1
      cases e
      have hn := JsonText.toNat_ofNat (n := x.toNat) (.inl (by omega))
      rw [encodeChar, hn, if_pos h1, show BitVec.ofNat 8 x.toNat = x from (byte_eq rfl).symm]
      rfl
    · split at e
      · cases e
      · split at e
        · split at e
          · split at e
            · rename_i y b' k hk
              cases e
              obtain ⟨hk1, rfl⟩ := cont_inv hk
              have hn := JsonText.toNat_ofNat (n := (x.toNat - 0xC0) * 64 + k) (.inl (by omega))
              simp only [encodeChar, hn]
              rw [if_neg (by omega), if_pos (by omega),
                      show BitVec.ofNat 8 (0xC0 + ((x.toNat - 0xC0) * 64 + k) / 64) = x from (byte_eq (by omega)).symm]
              have : ((x.toNat - 0xC0) * 64 + k) % 64 = k := by omega
              rw [this]
              rfl
            · cases e
          · cases e
        · split at e
          · split at e
            · split at e
              · rename_i y z b' k l hk hl
                obtain ⟨hk1, rfl⟩ := cont_inv hk
                obtain ⟨hl1, rfl⟩ := cont_inv hl
                split at e
                · cases e
                · cases e
                  have hn := JsonText.toNat_ofNat (n := (x.toNat - 0xE0) * 4096 + k * 64 + l) (by omega)
                  simp only [encodeChar, hn]
                  rw [if_neg (by omega), if_neg (by omega), if_pos (by omega),
                      show BitVec.ofNat 8 (0xE0 + ((x.toNat - 0xE0) * 4096 + k * 64 + l) / 4096) = x from (byte_eq (by omega)).symm]
                  have h1 : ((x.toNat - 0xE0) * 4096 + k * 64 + l) / 64 % 64 = k := by omega
                  have h2 : ((x.toNat - 0xE0) * 4096 + k * 64 + l) % 64 = l := by omega
                  rw [h1, h2]
                  rfl
              · cases e
            · cases e
          · split at e
            · split at e
              · split at e
                · rename_i y z w b' k l m hk hl hm
                  obtain ⟨hk1, rfl⟩ := cont_inv hk
                  obtain ⟨hl1, rfl⟩ := cont_inv hl
                  obtain ⟨hm1, rfl⟩ := cont_inv hm
                  split at e
                  · cases e
                  · cases e
                    have hn := JsonText.toNat_ofNat (n := (x.toNat - 0xF0) * 262144 + k * 4096 + l * 64 + m) (by omega)
                    simp only [encodeChar, hn]
                    rw [if_neg (by omega), if_neg (by omega), if_neg (by omega),
                      show BitVec.ofNat 8 (0xF0 + ((x.toNat - 0xF0) * 262144 + k * 4096 + l * 64 + m) / 262144) = x from (byte_eq (by omega)).symm]
                    have h1 : ((x.toNat - 0xF0) * 262144 + k * 4096 + l * 64 + m) / 4096 % 64 = k := by omega
                    have h2 : ((x.toNat - 0xF0) * 262144 + k * 4096 + l * 64 + m) / 64 % 64 = l := by omega
                    have h3 : ((x.toNat - 0xF0) * 262144 + k * 4096 + l * 64 + m) % 64 = m := by omega
                    rw [h1, h2, h3]
                    rfl
                · cases e
              · cases e
            · cases e

theorem decode_of : ∀ (n : Nat) (b : Bytes), b = encode (decode n b).1 ++ (decode n b).2
  | 0, b => rfl
  | n + 1, b => by
    rw [decode]
    split
    · rfl
    · rename_i c r h
      simp only [encode_cons, List.append_assoc]
      rw [← decode_of n r]
      exact decodeChar_of h

theorem decode_encode_append : ∀ (t : List Char) (n : Nat) (b : Bytes),
    decode (t.length + n) (encode t ++ b) = (t ++ (decode n b).1, (decode n b).2)
  | [], n, b => by simp [encode]
  | c :: t, n, b => by
    have : (c :: t).length + n = (t.length + n) + 1 := by simp; omega
    rw [this, decode, encode_cons, List.append_assoc, decodeChar_encodeChar]
    simp only [List.cons_append]
    rw [decode_encode_append t n b]

end Utf8

namespace JsonText

theorem blank_append {v w : List Char} (hv : Blank v) (hw : Blank w) : Blank (v ++ w) := by
  intro c hc
  rcases List.mem_append.1 hc with h | h
  · exact hv c h
  · exact hw c h

theorem stops_of_blank {w : List Char} (h : Blank w) : Stops w := by
  cases w with
  | nil => trivial
  | cons d w =>
    show isNum d = false
    rcases h d List.mem_cons_self with rfl | rfl | rfl | rfl <;> decide

theorem skipWs_blank {w : List Char} (h : Blank w) : skipWs w = [] := by
  have := skipWs_ws (blank_iff.1 h) []
  rwa [List.append_nil] at this

theorem text_head {lib : Lib} {a v s : List Char} {j : Json} (ha : Blank a) (hv : Denotes lib v j) :
    ∃ c r, a ++ (v ++ s) = c :: r ∧ c.toNat < 128 := by
  cases a with
  | nil =>
    obtain ⟨c, r, rfl, _, _, _, h⟩ := denotes_head hv
    exact ⟨c, _, rfl, h⟩
  | cons c a =>
    refine ⟨c, _, rfl, ?_⟩
    rcases ha c List.mem_cons_self with rfl | rfl | rfl | rfl <;> decide

theorem skipBom_of {bom : List Char} {lib : Lib} {a v s : List Char} {j : Json} (hb : Bom bom) (ha : Blank a)
    (hv : Denotes lib v j) : skipBom (bom ++ (a ++ (v ++ s))) = a ++ (v ++ s) := by
  rcases hb with rfl | rfl
  · obtain ⟨c, r, e, hc⟩ := text_head (s := s) ha hv
    rw [List.nil_append, e]
    exact skipBom_low hc
  · have : (Char.ofNat 0xFEFF).toNat = 0xFEFF := by decide
    simp [skipBom, this]

theorem skipBom_inv (t : List Char) : ∃ bom, Bom bom ∧ t = bom ++ skipBom t := by
  cases t with
  | nil => exact ⟨[], .inl rfl, rfl⟩
  | cons c t =>
    simp only [skipBom]
    split
    · rename_i h
      refine ⟨[Char.ofNat 0xFEFF], .inr rfl, ?_⟩
      rw [← h, Char.ofNat_toNat]
      rfl
    · exact ⟨[], .inl rfl, rfl⟩

/-- as many steps as there are bytes -/
theorem decode_enough {t : List Char} {b : Bytes} {n : Nat} (h : (Utf8.encode t ++ b).length ≤ n) :
    Utf8.decode n (Utf8.encode t ++ b) =
      (t ++ (Utf8.decode (n - t.length) b).1, (Utf8.decode (n - t.length) b).2) ∧ b.length ≤ n - t.length := by
  have hl := Utf8.length_encode t
  rw [List.length_append] at h
  have : n = t.length + (n - t.length) := by omega
  refine ⟨?_, by omega⟩
  conv => lhs; rw [this]
  exact Utf8.decode_encode_append t _ b

/-- `parse` accepts exactly the JSON texts, with a byte order mark in front and anything behind a zero byte -/
theorem cppParse_iff {b : Bytes} {j : Json} : cppParse b = some j ↔
    ∃ bom t rest, Bom bom ∧ IsText .cpp t j ∧ (rest = [] ∨ rest.head? = some 0#8) ∧ b = Utf8.encode (bom ++ t) ++ rest := by
  constructor
  · intro e
    have hb := Utf8.decode_of b.length b
    simp only [cppParse] at e
    split at e
    · cases e
    · rename_i j' r h
      split at e
      · rename_i hend
        cases e
        obtain ⟨bom, hbom, ht⟩ := skipBom_inv (Utf8.decode b.length b).1
        obtain ⟨w, v, hw, hv, hwv⟩ := (parse_of _).1 h
        obtain ⟨w', hw', hr⟩ := skipWs_inv r
        rw [hwv] at ht
        rw [Bool.and_eq_true] at hend
        obtain ⟨h1, h2⟩ := hend
        unfold atEnd at h1
        split at h1
        · rename_i hs
          rw [hs] at hr h2
          rw [List.append_nil] at hr
          subst hr
          simp only [List.isEmpty_nil, Bool.not_true, Bool.or_false, List.isEmpty_iff] at h2
          refine ⟨bom, w ++ (v ++ r), [], hbom, ⟨w, v, r, hw, hv, hw', rfl⟩, .inl rfl, ?_⟩
          rw [h2, ht] at hb
          exact hb
        · rename_i c q hs
          rw [hs] at hr
          simp only [decide_true, Bool.true_and, decide_eq_true_eq] at h1
          subst hr
          refine ⟨bom, w ++ (v ++ w'), Utf8.encode (c :: q) ++ (Utf8.decode b.length b).2, hbom, ⟨w, v, w', hw, hv, hw', rfl⟩, .inr ?_, ?_⟩
          · simp [Utf8.encode, Utf8.encodeChar, h1]
          · rw [ht] at hb
            conv => lhs; rw [hb]
            simp only [Utf8.encode_append, List.append_assoc]
      · cases e
  · rintro ⟨bom, t, rest, hbom, ⟨a, v, w, ha, hv, hw, rfl⟩, hrest, rfl⟩
    have key : ∀ x, Stops (w ++ x) → parseValue .cpp ((Utf8.encode (bom ++ (a ++ (v ++ w))) ++ rest).length + 2)
        (skipBom (bom ++ (a ++ (v ++ (w ++ x))))) =
        some (j, w ++ x) := by
      intro x hs
      rw [skipBom_of hbom ha hv, parseValue_skip (blank_iff.1 ha)]
      refine of_denotes hv _ _ hs ?_
      have := Utf8.length_encode (bom ++ (a ++ (v ++ w)))
      simp only [List.length_append] at this ⊢
      omega
    simp only [cppParse]
    obtain ⟨hd, hl⟩ := decode_enough (t := bom ++ (a ++ (v ++ w))) (b := rest) (Nat.le_refl _)
    rw [hd]
    rcases hrest with rfl | h0
    · have e : ∀ m, Utf8.decode m [] = ([], []) := by intro m; cases m <;> rfl
      rw [e]
      simp only [List.append_assoc]
      rw [key [] (by rw [List.append_nil]; exact stops_of_blank hw)]
      simp [atEnd, skipWs_blank hw]
    · cases rest with
      | nil => cases h0
      | cons z q =>
        cases h0
        generalize ((Utf8.encode (bom ++ (a ++ (v ++ w))) ++ 0#8 :: q).length - (bom ++ (a ++ (v ++ w))).length) = m at hl ⊢
        cases m with
        | zero => simp at hl
        | succ m =>
          have e : ∃ u y, Utf8.decode (m + 1) (0#8 :: q) = (Char.ofNat 0 :: u, y) :=
            ⟨_, _, rfl⟩
          obtain ⟨u, y, e⟩ := e
          rw [e]
          simp only [List.append_assoc]
          rw [key _ (stops_blank hw (c := Char.ofNat 0) (by decide))]
          have hsk : skipWs (w ++ Char.ofNat 0 :: u) = Char.ofNat 0 :: u := by
            rw [skipWs_ws (blank_iff.1 hw), skipWs_none (by decide)]
          simp [atEnd, hsk]

/-- `>>` reads exactly the files that begin with an object, an array or a string -/
theorem cppRead_iff {b : Bytes} {j : Json} (hj : Closed j) : cppRead b = some j ↔
    ∃ bom a v rest, Bom bom ∧ Blank a ∧ Denotes .cpp v j ∧ b = Utf8.encode (bom ++ (a ++ v)) ++ rest := by
  constructor
  · intro e
    have hb := Utf8.decode_of b.length b
    simp only [cppRead] at e
    split at e
    · cases e
    · rename_i j' r h
      cases e
      obtain ⟨bom, hbom, ht⟩ := skipBom_inv (Utf8.decode b.length b).1
      obtain ⟨w, v, hw, hv, hwv⟩ := (parse_of _).1 h
      rw [hwv] at ht
      refine ⟨bom, w, v, Utf8.encode r ++ (Utf8.decode b.length b).2, hbom, hw, hv, ?_⟩
      rw [ht] at hb
      conv => lhs; rw [hb]
      simp only [Utf8.encode_append, List.append_assoc]
  · rintro ⟨bom, a, v, rest, hbom, ha, hv, rfl⟩
    simp only [cppRead]
    rw [(decode_enough (t := bom ++ (a ++ v)) (b := rest) (Nat.le_refl _)).1]
    simp only [List.append_assoc]
    rw [skipBom_of hbom ha hv, parseValue_skip (blank_iff.1 ha)]
    have hn : v.length ≤ (Utf8.encode (bom ++ (a ++ v)) ++ rest).length + 2 := by
      have := Utf8.length_encode (bom ++ (a ++ v))
      simp only [List.length_append] at this ⊢
      omega
    have h1 := of_denotes hv _ [] trivial hn
    rw [List.append_nil] at h1
    have h2 := (parse_append _ _ (Nat.le_refl _)).1 v
      (Utf8.decode ((Utf8.encode (bom ++ (a ++ v)) ++ rest).length - (bom ++ (a ++ v)).length) rest).1 [] j
      (.inr (by cases j <;> first | exact hj.elim | exact fun h => h)) h1
    rw [h2]

/-- a file with a JSON text is read -/
theorem cppRead_of {bom t : List Char} {j : Json} (hbom : Bom bom) (ht : IsText .cpp t j) :
    cppRead (Utf8.encode (bom ++ t)) = some j := by
  obtain ⟨a, v, w, ha, hv, hw, rfl⟩ := ht
  simp only [cppRead]
  rw [Utf8.decode_encode _ _ (Utf8.length_encode _)]
  simp only
  rw [skipBom_of hbom ha hv, parseValue_skip (blank_iff.1 ha)]
  have hn : v.length ≤ (Utf8.encode (bom ++ (a ++ (v ++ w)))).length + 2 := by
    have := Utf8.length_encode (bom ++ (a ++ (v ++ w)))
    simp only [List.length_append] at this ⊢
    omega
  rw [of_denotes hv _ w (stops_of_blank hw) hn]

/-- `json.loads` accepts exactly the texts, and nothing may follow -/
theorem pyLoads_iff {t : List Char} {j : Json} : pyLoads t = some j ↔ IsText .py t j := by
  constructor
  · intro e
    simp only [pyLoads] at e
    split at e
    · cases e
    · rename_i j' r h
      split at e
      · rename_i hend
        cases e
        obtain ⟨w, v, hw, hv, rfl⟩ := (parse_of _).1 h
        obtain ⟨w', hw', hr⟩ := skipWs_inv r
        unfold atEnd at hend
        split at hend
        · rename_i hs
          rw [hs, List.append_nil] at hr
          exact ⟨w, v, r, hw, hv, hr ▸ hw', rfl⟩
        · cases hend
      · cases e
  · rintro ⟨a, v, w, ha, hv, hw, rfl⟩
    simp only [pyLoads]
    rw [parseValue_skip (blank_iff.1 ha), of_denotes hv _ w (stops_of_blank hw) (by simp only [List.length_append]; omega)]
    simp [atEnd, skipWs_blank hw]

/-! ### What is read can be written -/

theorem plain_assocSet {k : String} {v : Json} (hv : Plain v) : ∀ {l : List (String × Json)}, PlainMembers l →
    PlainMembers (assocSet l k v)
  | [], _ => ⟨hv, trivial⟩
  | (a, b) :: l, h => by
    obtain ⟨h1, h2⟩ : Plain b ∧ PlainMembers l := h
    simp only [assocSet]
    split
    · exact ⟨hv, h2⟩
    · exact ⟨h1, plain_assocSet hv h2⟩

theorem nodup_assocSet {k : String} {v : Json} : ∀ {l : List (String × Json)}, (l.map (·.1)).Nodup →
    ((assocSet l k v).map (·.1)).Nodup ∧ ∀ x, x ∈ (assocSet l k v).map (·.1) → x = k ∨ x ∈ l.map (·.1)
  | [], _ => by simp [assocSet]
  | (a, b) :: l, h => by
    rw [List.map_cons, List.nodup_cons] at h
    simp only [assocSet]
    split
    · rename_i e
      subst e
      refine ⟨?_, fun x hx => .inr hx⟩
      rw [List.map_cons, List.nodup_cons]
      exact h
    · rename_i e
      obtain ⟨h1, h2⟩ := nodup_assocSet (k := k) (v := v) h.2
      rw [List.map_cons, List.nodup_cons]
      refine ⟨⟨fun hm => ?_, h1⟩, fun x hx => ?_⟩
      · rcases h2 _ hm with hm | hm
        · exact e hm
        · exact h.1 hm
      · rcases List.mem_cons.1 hx with rfl | hx
        · exact .inr List.mem_cons_self
        · rcases h2 _ hx with hx | hx
          · exact .inl hx
          · exact .inr (List.mem_cons_of_mem _ hx)

theorem plain_merged {l : List (String × Json)} (h : PlainMembers l) : Plain (.obj (merged l)) := by
  have : ∀ (l acc : List (String × Json)), PlainMembers l → PlainMembers acc → (acc.map (·.1)).Nodup →
      PlainMembers (l.foldl (fun o m => assocSet o m.1 m.2) acc) ∧ ((l.foldl (fun o m => assocSet o m.1 m.2) acc).map (·.1)).Nodup := by
    intro l
    induction l with
    | nil => intro acc _ h1 h2; exact ⟨h1, h2⟩
    | cons m l ih =>
      intro acc hl h1 h2
      obtain ⟨hm, hl⟩ : Plain m.2 ∧ PlainMembers l := hl
      exact ih _ hl (plain_assocSet hm h1) (nodup_assocSet h2).1
  obtain ⟨h1, h2⟩ := this l [] h trivial .nil
  exact ⟨h2, h1⟩

mutual

theorem plain_of_denotes {lib : Lib} (hl : lib = .cpp) {t : List Char} {j : Json} (h : Denotes lib t j) : Plain j := by
  cases h with
  | null | true | false | string | emptyArray => trivial
  | emptyObject => exact ⟨.nil, trivial⟩
  | nan h | infinity h | negInfinity h => cases hl.symm.trans h
  | @number x _ _ hj =>
    subst hl
    rcases hj with ⟨i, _, h, rfl⟩ | ⟨_, neg, u, h, rfl⟩
    · exact h
    · have := Dbl.ofDecimal_representable x.minus (natOf (x.int ++ x.frac.getD [])) x.exponent
      rw [← Literal.value, h] at this
      exact ⟨this, _, _, rfl⟩
  | array h => exact plain_of_elements hl h
  | object h => exact plain_merged (plain_of_members hl h)
termination_by 2 * t.length
decreasing_by all_goals (simp only [List.length_cons, List.length_append, List.length_nil]; omega)

theorem plain_of_elements {lib : Lib} (hl : lib = .cpp) {t : List Char} {l : List Json} (h : Elements lib t l) : PlainList l := by
  cases h with
  | one _ hv => exact ⟨plain_of_denotes hl hv, trivial⟩
  | more _ hv _ hu => exact ⟨plain_of_denotes hl hv, plain_of_elements hl hu⟩
termination_by 2 * t.length + 1
decreasing_by all_goals (simp only [List.length_cons, List.length_append]; omega)

theorem plain_of_members {lib : Lib} (hl : lib = .cpp) {t : List Char} {l : List (String × Json)} (h : Members lib t l) : PlainMembers l := by
  cases h with
  | one _ _ _ _ hv => exact ⟨plain_of_denotes hl hv, trivial⟩
  | more _ _ _ _ hv _ hu => exact ⟨plain_of_denotes hl hv, plain_of_members hl hu⟩
termination_by 2 * t.length + 1
decreasing_by all_goals (simp only [List.length_cons, List.length_append]; omega)

end

end JsonText

end Z5
