import Verif.Proofs.JsonDoc
import Verif.Model.Steps

/-!
# C80: JSON documents and attribute values survive their texts
-/

namespace Z5

namespace Props

open JsonText

/-! ### Digits that meet the contract: all of them -/

/-- the exact decimal expansion: `u * 2^-1074 = (u * 5^1074) * 10^-1074` -/
def exactDigits : Digits where
  text
    | .fin neg u => (if neg then ['-'] else []) ++ (toStr (u * 5 ^ 1074) ++ ['e', '-', '1', '0', '7', '4'])
    | _ => []

/-- as a literal -/
def exactLiteral (neg : Bool) (m : Nat) : Literal := ⟨neg, toStr m, none, some ('e', some '-', ['1', '0', '7', '4'])⟩

theorem exactLiteral_wf (neg : Bool) (m : Nat) : (exactLiteral neg m).WF where
  int := ⟨toStr_ne_nil m, fun c hc => by
    have := isDigit_toStr hc
    simpa only [isDigit, Bool.and_eq_true, decide_eq_true_eq] using this⟩
  zero := by
    by_cases h : m = 0
    · subst h; exact .inl rfl
    · obtain ⟨c, r, e, hc⟩ := toStr_head m (by omega)
      refine .inr ?_
      show (toStr m).head? ≠ _
      rw [e]
      simpa using hc
  frac := by intro f h; cases h
  exp := by
    intro m' s e h
    cases h
    exact ⟨.inl rfl, .inr (.inr rfl), by decide, by decide⟩

set_option exponentiation.threshold 2100 in
theorem exactDigits_lawful : exactDigits.Lawful := by
  intro neg u hr
  refine ⟨exactLiteral neg (u * 5 ^ 1074), exactLiteral_wf _ _, rfl, rfl, ?_⟩
  have he : (exactLiteral neg (u * 5 ^ 1074)).exponent = -1074 := by rfl
  rw [Literal.value, he]
  simp only [exactLiteral, Option.getD, List.append_nil, natOf_toStr]
  refine Dbl.ofDecimal_exact hr ?_
  show u * 5 ^ 1074 * 10 ^ 0 * 2 ^ 1074 = u * 10 ^ 1074
  rw [Nat.pow_zero, Nat.mul_one, Nat.mul_assoc, ← Nat.mul_pow]

/-! ### Decimal numbers -/

set_option exponentiation.threshold 2100 in
/-- A decimal number is read as the nearest double: no double `v` is nearer to `m * 10^e`, and one that is as near is the
    neighbour with the odd last digit.  (`v` in units of 2^-1074; both sides are multiplied by 10^-e if `e` is negative.) -/
theorem c80_nearest {neg neg' : Bool} {m u : Nat} {e : Int} (h : Dbl.ofDecimal neg m e = .fin neg' u) :
    neg' = neg ∧ (Dbl.fin neg' u).Representable ∧
    ∀ v, (Dbl.fin false v).Representable →
      dist (u * 10 ^ (-e).toNat) (m * 10 ^ e.toNat * 2 ^ 1074) ≤ dist (v * 10 ^ (-e).toNat) (m * 10 ^ e.toNat * 2 ^ 1074) ∧
      (dist (v * 10 ^ (-e).toNat) (m * 10 ^ e.toNat * 2 ^ 1074) ≤ dist (u * 10 ^ (-e).toNat) (m * 10 ^ e.toNat * 2 ^ 1074) →
        v ≠ u → ∃ t b, u = 2 * t * 2 ^ b ∧ (v = (2 * t + 1) * 2 ^ b ∨ v + 2 ^ b = 2 * t * 2 ^ b)) := by
  have hr := Dbl.ofDecimal_representable neg m e
  rw [h] at hr
  refine ⟨Dbl.ofDecimal_neg h, hr, ?_⟩
  rintro v ⟨a, j, ha, hj, rfl⟩
  have hd : 0 < 10 ^ (-e).toNat := Nat.pow_pos (by decide)
  have key := Dbl.rounded_nearest (n := m * 10 ^ e.toNat * Dbl.one) (j := j) hd ha
  simp only [Dbl.ofDecimal] at h
  split at h
  · cases h
    obtain ⟨h1, h2⟩ := key
    refine ⟨h1, fun h3 h4 => ?_⟩
    obtain ⟨t, ht⟩ := h2 h3 h4
    exact ⟨t, _, ht⟩
  · cases h

set_option exponentiation.threshold 2100 in
/-- It is infinite exactly if it is beyond the largest double, `(2^53 - 1) * 2^971`, by at least half of the distance of the largest
    doubles from each other; it is never a NaN. -/
theorem c80_overflow (neg : Bool) (m : Nat) (e : Int) :
    Dbl.ofDecimal neg m e ≠ .nan ∧
    ((∃ neg', Dbl.ofDecimal neg m e = .inf neg') ↔
      ((2 ^ 53 - 1) * 2 ^ 2045 + 2 ^ 2044) * 10 ^ (-e).toNat ≤ m * 10 ^ e.toNat * 2 ^ 1074) := by
  have hd : 0 < 10 ^ (-e).toNat := Nat.pow_pos (by decide)
  have key := Dbl.rounded_overflow (n := m * 10 ^ e.toNat * Dbl.one) hd
  simp only [Dbl.ofDecimal]
  split
  · rename_i h
    refine ⟨(by intro h; cases h), ?_⟩
    constructor
    · rintro ⟨_, h⟩; cases h
    · intro h'
      exact absurd (key.2 h') (Nat.not_lt.2 h)
  · rename_i h
    refine ⟨(by intro h; cases h), ?_⟩
    constructor
    · intro _; exact key.1 (Nat.lt_of_not_le h)
    · intro _; exact ⟨_, rfl⟩

/-- `0.1` is read as `0x1.999999999999ap-4` -/
example : Dbl.ofDecimal false 1 (-1) = .fin false (0x1999999999999a * 2 ^ 1018) := by decide +kernel

/-- `1e309` is too large -/
example : Dbl.ofDecimal true 1 309 = .inf true := by decide +kernel

/-! ### Documents -/

/-- A JSON document is read as it was written: on the filesystem, compact or indented and with a line feed, and on S3. -/
theorem c80_document {dg : Digits} (hd : dg.Lawful) {j : Json} (hj : Plain j) :
    cppRead (Utf8.encode (text compact dg j)) = some j ∧
    cppRead (Utf8.encode (text pretty dg j ++ ['\n'])) = some j ∧
    cppParse (Utf8.encode (text pretty dg j)) = some j := by
  have hv := plain_valid j hj
  refine ⟨?_, ?_, ?_⟩
  · have := cppRead_text compact_ok hd hv (s := []) trivial
    rw [List.append_nil] at this
    rw [this]; exact received_plain _ _ j hj
  · rw [cppRead_text pretty_ok hd hv (s := ['\n']) (by show isNum '\n' = false; decide)]
    exact received_plain _ _ j hj
  · rw [cppParse_text pretty_ok hd hv]
    exact received_plain _ _ j hj

/-- Different documents have different texts. -/
theorem c80_injective {dg : Digits} (hd : dg.Lawful) {i j : Json} (hi : Plain i) (hj : Plain j) :
    (text compact dg i = text compact dg j → i = j) ∧ (text pretty dg i = text pretty dg j → i = j) := by
  obtain ⟨i1, _, i3⟩ := c80_document hd hi
  obtain ⟨j1, _, j3⟩ := c80_document hd hj
  refine ⟨fun h => ?_, fun h => ?_⟩
  · rw [h, j1] at i1; exact (Option.some.inj i1).symm
  · rw [h, j3] at i3; exact (Option.some.inj i3).symm

/-! ### Attributes in Python -/

/-- An attribute value that Python hands over and gets back is the same: Python's text is accepted, what is stored is the value,
    and Python reads the value from the text that it gets. -/
theorem c80_attribute {py cpp : Digits} (hp : py.Lawful) (hc : cpp.Lawful) {j : Json} (hj : Plain j) :
    cppParse (Utf8.encode (text dumps py j)) = some j ∧ pyLoads (text compact cpp j) = some j := by
  have hv := plain_valid j hj
  rw [cppParse_text dumps_ok hp hv, pyLoads_text compact_ok hc hv]
  exact ⟨received_plain _ _ j hj, received_plain _ _ j hj⟩

/-- Of the values that are not the same afterwards: `received` says which are refused and which are changed, and into what;
    what has been accepted once does not change any more, neither in files nor when Python reads it. -/
theorem c80_lossy {py cpp : Digits} (hp : py.Lawful) (hc : cpp.Lawful) {j : Json} (hj : Valid j) :
    cppParse (Utf8.encode (text dumps py j)) = received .py .cpp j ∧
    ∀ j', received .py .cpp j = some j' →
      Plain j' ∧ cppRead (Utf8.encode (text compact cpp j')) = some j' ∧ pyLoads (text compact cpp j') = some j' := by
  refine ⟨cppParse_text dumps_ok hp hj, fun j' h => ?_⟩
  have hp' := plain_received .py j j' hj h
  exact ⟨hp', (c80_document hc hp').1, (c80_attribute hp hc hp').2⟩

theorem receivedList_none {l : List Json} {v : Json} (h : v ∈ l) (hv : received .py .cpp v = none) :
    receivedList .py .cpp l = none := by
  induction l with
  | nil => cases h
  | cons w l ih =>
    rw [receivedList]
    rcases List.mem_cons.1 h with rfl | h
    · rw [hv]
    · cases received .py .cpp w with
      | none => rfl
      | some w' => simp only; rw [ih h]

theorem receivedMembers_none {l : List (String × Json)} {k : String} {v : Json} (h : (k, v) ∈ l)
    (hv : received .py .cpp v = none) : receivedMembers .py .cpp l = none := by
  induction l with
  | nil => cases h
  | cons p l ih =>
    obtain ⟨k', w⟩ := p
    rw [receivedMembers]
    rcases List.mem_cons.1 h with h | h
    · cases h; rw [hv]
    · cases received .py .cpp w with
      | none => rfl
      | some w' => simp only; rw [ih h]

/-- Attributes with a NaN or an infinite number anywhere are refused as a whole (before anything is written). -/
theorem c80_nan_refused {py : Digits} (hp : py.Lawful) {j : Json} (hj : Valid j) (h : HasNonFinite j) :
    cppParse (Utf8.encode (text dumps py j)) = none := by
  rw [cppParse_text dumps_ok hp hj]
  show received .py .cpp j = none
  clear hj
  induction h with
  | here hd =>
    rename_i d
    cases d with
    | fin neg u => exact absurd rfl (hd neg u)
    | nan => rfl
    | inf neg => rfl
  | arr hm _ ih => rw [received, receivedList_none hm ih]
  | obj hm _ ih => rw [received, receivedMembers_none hm ih]

/-! ### Torn documents -/

/-- Of a document (an object, an array or a string) no part is a document: whatever part of the text is in the file when it is
    read, reading fails, on the filesystem and on S3. -/
theorem c80_torn {dg : Digits} (hd : dg.Lawful) {j : Json} (hj : Plain j) (hc : Closed j) {b : Bytes}
    (h : Torn b (Utf8.encode (text compact dg j)) ∨ Torn b (Utf8.encode (text pretty dg j))) :
    cppRead b = none ∧ cppParse b = none := by
  have hv := plain_valid j hj
  have key : ∀ n, parseValue .cpp n (skipBom (Utf8.decode b.length b).1) = none := by
    intro n
    rcases h with ⟨s, hs, e⟩ | ⟨s, hs, e⟩
    · exact parse_torn compact_ok hd hv hc hs e n
    · exact parse_torn pretty_ok hd hv hc hs e n
  exact ⟨by rw [cppRead, key], by rw [cppParse]; simp only [key]⟩

/-- The indented text ends with a line feed; without it the document is complete. -/
theorem c80_torn_line {dg : Digits} (hd : dg.Lawful) {j : Json} (hj : Plain j) (hc : Closed j) {b : Bytes}
    (h : Torn b (Utf8.encode (text pretty dg j ++ ['\n']))) :
    cppRead b = none ∨ (b = Utf8.encode (text pretty dg j) ∧ cppRead b = some j) := by
  obtain ⟨s, hs, e⟩ := h
  rw [Utf8.encode_append] at e
  have e1 : Utf8.encode ['\n'] = [10#8] := by decide
  rw [e1] at e
  obtain ⟨s', x, rfl⟩ : ∃ s' x, s = s' ++ [x] := ⟨s.dropLast, s.getLast hs, (List.dropLast_concat_getLast hs).symm⟩
  rw [← List.append_assoc] at e
  have e2 := (List.append_inj_left' e rfl)
  by_cases h0 : s' = []
  · subst h0
    rw [List.append_nil] at e2
    refine .inr ⟨e2, ?_⟩
    have := cppRead_text pretty_ok hd (plain_valid j hj) (s := []) trivial
    rw [List.append_nil] at this
    rw [e2, this]
    exact received_plain _ _ j hj
  · exact .inl (c80_torn hd hj hc (.inr ⟨s', h0, e2⟩)).1

/-- The disk of the theorems on crashes and schedules (C49 and others), with the contents that a file can have while its text
    reaches it byte by byte (in any portions: readers see some of these). -/
def textDisk (dg : Digits) (st : Style) : Disk where
  torn j := (List.range (Utf8.encode (text st dg j)).length).map fun n => (Utf8.encode (text st dg j)).take n
  order _ _ := []

theorem torn_take {b : Bytes} {n : Nat} (h : n < b.length) : Torn (b.take n) b := by
  refine ⟨b.drop n, ?_, List.take_append_drop _ _⟩
  intro e
  have := congrArg List.length e
  simp only [List.length_drop, List.length_nil] at this
  omega

/-- What the model of the disk assumes of torn documents holds of these contents. -/
theorem c80_disk {dg : Digits} (hd : dg.Lawful) {j : Json} (hj : Plain j) (hc : Closed j) {st : Style}
    (hs : st = compact ∨ st = pretty) : ∀ b ∈ (textDisk dg st).torn j, cppRead b = none ∧ cppParse b = none := by
  intro b hb
  obtain ⟨n, hn, rfl⟩ := List.mem_map.1 hb
  have hn := List.mem_range.1 hn
  have ht := torn_take hn
  rcases hs with rfl | rfl
  · exact c80_torn hd hj hc (.inl ht)
  · exact c80_torn hd hj hc (.inr ht)

/-! ### What is not the same -/

/-- A Python integer of more than 64 bits becomes a double. -/
theorem c80_integer_counterexample :
    received .py .cpp (.int (2 ^ 64 + 1)) = some (.float (.fin false (2 ^ 64 * Dbl.one))) ∧
    ∀ {py cpp : Digits}, py.Lawful → cpp.Lawful → ∃ j',
      cppParse (Utf8.encode (text dumps py (.int (2 ^ 64 + 1)))) = some j' ∧
      pyLoads (text compact cpp j') = some (.float (.fin false (2 ^ 64 * Dbl.one))) := by
  have h : received .py .cpp (.int (2 ^ 64 + 1)) = some (.float (.fin false (2 ^ 64 * Dbl.one))) := by
    have e : Dbl.ofDecimal (decide ((2 ^ 64 + 1 : Int) < 0)) (2 ^ 64 + 1 : Int).natAbs 0 = .fin false (2 ^ 64 * Dbl.one) := by
      decide +kernel
    simp only [received, receivedInt]
    rw [if_neg (by decide), e]
  refine ⟨h, fun hp hc => ?_⟩
  obtain ⟨h1, h2⟩ := c80_lossy hp hc (j := .int (2 ^ 64 + 1)) trivial
  obtain ⟨_, _, h3⟩ := h2 _ h
  exact ⟨_, by rw [h1, h], h3⟩

/-- A NaN that C++ code puts into attributes is `null` afterwards. -/
theorem c80_nan_counterexample (dg : Digits) :
    cppRead (Utf8.encode (text compact dg (.obj [("a", .float .nan)]))) = some (.obj [("a", .null)]) := by
  have e : Utf8.encode (text compact dg (.obj [("a", .float .nan)])) =
      Utf8.encode ['{', '"', 'a', '"', ':', 'n', 'u', 'l', 'l', '}'] := by
    simp [text, write, writeMembers, newline, compact, writeString, writeRest, writeChar, writeDbl]
  rw [e]
  rfl

/-- A document that is a mere number is not protected: a part of it is a number, too. -/
theorem c80_number_counterexample (dg : Digits) :
    Torn (Utf8.encode ['1']) (Utf8.encode (text compact dg (.int 12))) ∧
    cppRead (Utf8.encode ['1']) = some (.int 1) := by
  refine ⟨⟨Utf8.encode ['2'], by decide, ?_⟩, rfl⟩
  show _ = Utf8.encode (writeInt 12)
  decide

/-! ### A case -/

/-- attributes with all kinds of values -/
def exDoc : Json :=
  .obj [("name", .str "Ä \"x\"\n😀"), ("n", .arr [.int (-5), .int (2 ^ 64 - 1), .float (.fin true (3 * 2 ^ 1073))]),
    ("o", .obj [("", .null), ("b", .bool true)]), ("e", .arr []), ("f", .obj [])]

theorem exDoc_plain : Plain exDoc := by
  refine ⟨by decide, trivial, ⟨⟨by decide, by decide⟩, ⟨by decide, by decide⟩, ⟨⟨3, 1073, by decide, by decide, rfl⟩, _, _, rfl⟩,
    trivial⟩, ⟨by decide, trivial, trivial, trivial⟩, trivial, ⟨by decide, trivial⟩, trivial⟩

example : cppRead (Utf8.encode (text pretty exactDigits exDoc ++ ['\n'])) = some exDoc :=
  (c80_document exactDigits_lawful exDoc_plain).2.1

example : pyLoads (text compact exactDigits exDoc) = some exDoc :=
  (c80_attribute exactDigits_lawful exactDigits_lawful exDoc_plain).2

/-- half of a document -/
example : cppRead ((Utf8.encode (text compact exactDigits exDoc)).take 20) = none :=
  (c80_torn exactDigits_lawful exDoc_plain trivial (.inl (torn_take (by decide +kernel)))).1

/-- a list with a NaN deep inside -/
example : cppParse (Utf8.encode (text dumps exactDigits (.obj [("a", .int 1), ("b", .arr [.null, .float .nan])]))) = none :=
  c80_nan_refused exactDigits_lawful ⟨by decide, trivial, ⟨trivial, trivial, trivial⟩, trivial⟩
    (.obj (k := "b") (v := .arr [.null, .float .nan]) (by simp) (.arr (v := .float .nan) (by simp) (.here (by intro _ _ h; cases h))))

/-- the text as it is in the file -/
example : Utf8.encode (text compact exactDigits (.obj [("ä", .arr [.int 1, .bool false]), ("b\n", .str "\x01/")])) =
    [123, 34, 195, 164, 34, 58, 91, 49, 44, 102, 97, 108, 115, 101, 93, 44, 34, 98, 92, 110, 34, 58, 34, 92, 117, 48, 48, 48, 49, 47,
      34, 125] := by decide +kernel

end Props

end Z5
