import Verif.Proofs.JsonGrammar
import Verif.Props.JsonText

/-!
# C82: Documents of other programs are read as what they say

Metadata and attributes come from other implementations as well: with other white space, another order of the members, other
escapes and other digits.  `Spec/JsonGrammar` says what a text denotes.
-/

namespace Z5

namespace Props

open JsonText

/-- **C82.** `parse` (S3, and the attributes that Python hands over) accepts exactly the JSON texts, and gives the value that the
    text denotes.  A byte order mark in front is ignored, and so is everything from a zero byte behind the value on. -/
theorem c82_parse (b : Bytes) (j : Json) : cppParse b = some j ↔
    ∃ bom t rest, Bom bom ∧ IsText .cpp t j ∧ (rest = [] ∨ rest.head? = some 0#8) ∧ b = Utf8.encode (bom ++ t) ++ rest :=
  cppParse_iff

/-- **C82.** A document on the filesystem is read as `j` exactly if the file begins with a text of `j`; what follows is ignored. -/
theorem c82_read (b : Bytes) {j : Json} (hj : Closed j) : cppRead b = some j ↔
    ∃ bom a v rest, Bom bom ∧ Blank a ∧ Denotes .cpp v j ∧ b = Utf8.encode (bom ++ (a ++ v)) ++ rest :=
  cppRead_iff hj

/-- **C82.** In particular every file with a JSON text, of whatever value, is read as the value. -/
theorem c82_file {bom t : List Char} {j : Json} (hb : Bom bom) (ht : IsText .cpp t j) :
    cppRead (Utf8.encode (bom ++ t)) = some j ∧ cppParse (Utf8.encode (bom ++ t)) = some j :=
  ⟨cppRead_of hb ht, cppParse_iff.2 ⟨bom, t, [], hb, ht, .inl rfl, by simp⟩⟩

/-- **C82.** Python reads a text as `j` exactly if it is a text of `j`, where it knows three numbers more than JSON. -/
theorem c82_loads (t : List Char) (j : Json) : pyLoads t = some j ↔ IsText .py t j := pyLoads_iff

/-- **C82.** No text denotes two values. -/
theorem c82_unique {lib : Lib} {t : List Char} {i j : Json} (hi : Denotes lib t i) (hj : Denotes lib t j) : i = j := by
  have h1 := of_denotes hi t.length [] trivial (Nat.le_refl _)
  rw [of_denotes hj t.length [] trivial (Nat.le_refl _)] at h1
  cases h1
  rfl

/-- **C82.** Of several members with the same name the last one counts; if there are none such, the object has the members as they
    are written. -/
theorem c82_members (l : List (String × Json)) :
    (∀ k, (Json.obj (merged l)).find k = assocGet l.reverse k) ∧ ((l.map (·.1)).Nodup → merged l = l) :=
  ⟨merged_get l, merged_distinct⟩

/-- **C82.** What has been read from a document of another program survives being written and read (C80). -/
theorem c82_rewrite {dg : Digits} (hd : dg.Lawful) {b : Bytes} {j : Json} (hb : cppParse b = some j ∨ (Closed j ∧ cppRead b = some j)) :
    cppRead (Utf8.encode (text compact dg j)) = some j ∧
    cppRead (Utf8.encode (text pretty dg j ++ ['\n'])) = some j ∧
    cppParse (Utf8.encode (text pretty dg j)) = some j := by
  refine c80_document hd ?_
  rcases hb with hb | ⟨hj, hb⟩
  · obtain ⟨_, _, _, _, ⟨_, _, _, _, hv, _⟩, _⟩ := cppParse_iff.1 hb
    exact plain_of_denotes rfl hv
  · obtain ⟨_, _, _, _, _, _, hv, _⟩ := (cppRead_iff hj).1 hb
    exact plain_of_denotes rfl hv

/-- **C82.** The texts that the library and Python write are JSON texts of the values (those that JSON can express). -/
theorem c82_written {dg : Digits} (hd : dg.Lawful) {j : Json} (hj : Plain j) {st : Style}
    (hs : st = compact ∨ st = pretty ∨ st = dumps) : IsText .cpp (text st dg j) j := by
  have hok : st.Ok := by
    rcases hs with rfl | rfl | rfl
    · exact compact_ok
    · exact pretty_ok
    · exact dumps_ok
  have h := parse_write (lib := .cpp) hok hd j ((write st dg 0 j).length + 1) 0 [] (plain_valid j hj) trivial (Nat.lt_succ_self _)
  rw [received_plain _ _ j hj] at h
  obtain ⟨w, v, hw, hv, e⟩ := (parse_of _).1 h
  rw [List.append_nil, List.append_nil] at e
  exact ⟨w, v, [], hw, hv, (by intro c hc; cases hc), by rw [List.append_nil]; exact e⟩

/-! ### Examples -/

/-- a document as another program might write it: `{ "\u0061" :[-15 ,\ttrue], "a":"\ud83d\ude00\/" }` -/
def exampleText : List Char :=
  ['{', ' ', '"', '\\', 'u', '0', '0', '6', '1', '"', ' ', ':', '[', '-', '1', '5', ' ', ',', '\t', 't', 'r', 'u', 'e', ']', ',', ' ',
    '"', 'a', '"', ':', '"', '\\', 'u', 'd', '8', '3', 'd', '\\', 'u', 'D', 'E', '0', '0', '\\', '/', '"', ' ', '}']

/-- It says: `a` is a string of two characters (the last `a` counts). -/
def exampleValue : Json := .obj [("a", .str (String.ofList [Char.ofNat 0x1F600, '/']))]

/-- The grammar has it. -/
theorem exampleText_denotes : Denotes .cpp exampleText exampleValue := by
  have blank : ∀ {w : List Char}, w = [] ∨ w = [' '] ∨ w = ['\t'] → Blank w := by
    rintro w (rfl | rfl | rfl) <;> intro c hc <;> simp_all
  have key1 : StringText ['\\', 'u', '0', '0', '6', '1'] ['a'] :=
    .cons (.unicode ⟨'0', '0', '6', '1', 0, 0, 6, 1, rfl, .inl rfl, .inl rfl, .inl rfl, .inl rfl, by decide⟩) .nil
  have key2 : StringText ['a'] ['a'] := .cons (.unescaped (by decide) (by decide) (by decide)) .nil
  have num : Denotes .cpp ['-', '1', '5'] (.int (-15)) :=
    .number (x := ⟨true, ['1', '5'], none, none⟩)
      ⟨⟨by decide, by decide⟩, .inr (by decide), (by intro f h; cases h), (by intro m s e h; cases h)⟩
      (.inl ⟨-15, by decide, ⟨by decide, by decide⟩, rfl⟩)
  have arr : Denotes .cpp ['[', '-', '1', '5', ' ', ',', '\t', 't', 'r', 'u', 'e', ']'] (.arr [.int (-15), .bool true]) :=
    .array (.more (a := []) (t := ['-', '1', '5']) (b := [' ']) (blank (.inl rfl)) num (blank (.inr (.inl rfl)))
      (.one (a := ['\t']) (b := []) (blank (.inr (.inr rfl))) .true (blank (.inl rfl))))
  have str : StringText ['\\', 'u', 'd', '8', '3', 'd', '\\', 'u', 'D', 'E', '0', '0', '\\', '/'] [Char.ofNat 0x1F600, '/'] :=
    .cons (t := ['\\', 'u', 'd', '8', '3', 'd', '\\', 'u', 'D', 'E', '0', '0'])
      (.surrogates (h := ['d', '8', '3', 'd']) (l := ['D', 'E', '0', '0']) (v := 0xD83D) (w := 0xDE00)
        ⟨'d', '8', '3', 'd', 13, 8, 3, 13, rfl, .inl rfl, .inl rfl, .inl rfl, .inl rfl, by decide⟩
        ⟨'D', 'E', '0', '0', 13, 14, 0, 0, rfl, .inr rfl, .inr rfl, .inl rfl, .inl rfl, by decide⟩
        (by decide) (by decide) (by decide) (by decide) (by decide))
      (.cons (t := ['\\', '/']) (.short (by decide)) .nil)
  have := Denotes.object (Members.more (a := [' ']) (b := [' ']) (c := []) (d := []) (blank (.inr (.inl rfl))) key1 (blank (.inr (.inl rfl)))
    (blank (.inl rfl)) arr (blank (.inl rfl))
    (.one (a := [' ']) (b := []) (c := []) (d := [' ']) (blank (.inr (.inl rfl))) key2 (blank (.inl rfl)) (blank (.inl rfl))
      (.string str) (blank (.inr (.inl rfl)))))
  exact this

example : cppRead (Utf8.encode exampleText) = some exampleValue ∧ cppParse (Utf8.encode exampleText) = some exampleValue :=
  c82_file (bom := []) (.inl rfl) ⟨[], exampleText, [], (by intro c hc; cases hc), exampleText_denotes,
    (by intro c hc; cases hc), rfl⟩

/-- Not JSON: a comma too many, a leading zero, an unescaped line feed, half a surrogate pair, two values -/
example : ∀ t ∈ ["[1,]".toList, "[01]".toList, "[\"\n\"]".toList, "[\"\\ud83d\"]".toList, "[] []".toList],
    cppParse (Utf8.encode t) = none := by
  decide +kernel

/-- Python's reader takes its three numbers, but neither a second value nor a zero character behind the text. -/
example : pyLoads "[-Infinity]".toList = some (.arr [.float (.inf true)]) ∧
    pyLoads ("[]".toList ++ [Char.ofNat 0]) = none ∧ pyLoads "[] []".toList = none := by
  have blank : Blank [] := by intro c hc; cases hc
  exact ⟨(c82_loads _ _).2 ⟨[], "[-Infinity]".toList, [], blank, .array (t := "-Infinity".toList)
    (.one (a := []) (b := []) blank (.negInfinity rfl) blank), blank, rfl⟩, by decide +kernel, by decide +kernel⟩

end Props

end Z5
