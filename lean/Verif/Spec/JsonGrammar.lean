import Verif.Spec.JsonText

/-!
# Specification: which texts are JSON and which values they denote (RFC 8259)

Written after the RFC, not after the code; everything the RFC leaves open (numbers beyond 64 bits or beyond the doubles, several
members with the same name) is decided as `nlohmann::json` and Python document it.
-/

namespace Z5

namespace JsonText

/-- white space (section 2) -/
def Blank (t : List Char) : Prop := ∀ c ∈ t, c = ' ' ∨ c = '\t' ∨ c = '\n' ∨ c = '\r'

/-- a hexadecimal digit and its value -/
def HexDigit (c : Char) (v : Nat) : Prop :=
  ['0', '1', '2', '3', '4', '5', '6', '7', '8', '9', 'a', 'b', 'c', 'd', 'e', 'f'][v]? = some c ∨
  ['0', '1', '2', '3', '4', '5', '6', '7', '8', '9', 'A', 'B', 'C', 'D', 'E', 'F'][v]? = some c

/-- four hexadecimal digits and their value -/
def Hex4 (t : List Char) (n : Nat) : Prop :=
  ∃ a b c d w x y z, t = [a, b, c, d] ∧ HexDigit a w ∧ HexDigit b x ∧ HexDigit c y ∧ HexDigit d z ∧
    n = w * 4096 + x * 256 + y * 16 + z

/-- the escapes with two characters (section 7) -/
def shortEscapes : List (Char × Nat) :=
  [('"', 0x22), ('\\', 0x5C), ('/', 0x2F), ('b', 0x8), ('f', 0xC), ('n', 0xA), ('r', 0xD), ('t', 0x9)]

/-- the ways to write a character in a string (section 7) -/
inductive CharText : List Char → Char → Prop
  | unescaped {c : Char} : c ≠ '"' → c ≠ '\\' → 0x20 ≤ c.toNat → CharText [c] c
  | short {e c : Char} : (e, c.toNat) ∈ shortEscapes → CharText ['\\', e] c
  | unicode {h : List Char} {c : Char} : Hex4 h c.toNat → CharText ('\\' :: 'u' :: h) c
  | surrogates {h l : List Char} {v w : Nat} {c : Char} : Hex4 h v → Hex4 l w → 0xD800 ≤ v → v < 0xDC00 → 0xDC00 ≤ w →
      w < 0xE000 → c.toNat = 0x10000 + (v - 0xD800) * 0x400 + (w - 0xDC00) →
      CharText ('\\' :: 'u' :: h ++ '\\' :: 'u' :: l) c

/-- what stands between the quotation marks -/
inductive StringText : List Char → List Char → Prop
  | nil : StringText [] []
  | cons {t u s : List Char} {c : Char} : CharText t c → StringText u s → StringText (t ++ u) (c :: s)

/-- the number as an integer, if it has neither a fraction nor an exponent -/
def Literal.integer (x : Literal) : Option Int :=
  match x.frac, x.exp with
  | none, none => some (if x.minus then -(natOf x.int : Int) else (natOf x.int : Int))
  | _, _ => none

/-- the integers of 64 bits, signed or unsigned -/
def Fits (i : Int) : Prop := -2 ^ 63 ≤ i ∧ i < 2 ^ 64

/-- The value of a number.  `nlohmann::json`: an integer of 64 bits, or else the nearest double; no value if that is infinite.
    Python: any integer, or else the nearest double. -/
def Literal.Means (lib : Lib) (x : Literal) (j : Json) : Prop :=
  match lib with
  | .cpp => (∃ i, x.integer = some i ∧ Fits i ∧ j = .int i) ∨
      ((∀ i, x.integer = some i → ¬ Fits i) ∧ ∃ neg u, x.value = .fin neg u ∧ j = .float (.fin neg u))
  | .py => match x.integer with
    | some i => j = .int i
    | none => j = .float x.value

/-- the object with these members: of several with the same name the last one counts (`merged_get`) -/
def merged (l : List (String × Json)) : List (String × Json) := l.foldl (fun o m => assocSet o m.1 m.2) []

mutual

/-- the value that a text denotes (section 3); Python adds three values of its own (`json.loads`, documentation of
    `parse_constant`) -/
inductive Denotes (lib : Lib) : List Char → Json → Prop
  | null : Denotes lib ['n', 'u', 'l', 'l'] .null
  | true : Denotes lib ['t', 'r', 'u', 'e'] (.bool true)
  | false : Denotes lib ['f', 'a', 'l', 's', 'e'] (.bool false)
  | number {x : Literal} {j : Json} : x.WF → x.Means lib j → Denotes lib x.text j
  | nan : lib = .py → Denotes lib ['N', 'a', 'N'] (.float .nan)
  | infinity : lib = .py → Denotes lib ['I', 'n', 'f', 'i', 'n', 'i', 't', 'y'] (.float (.inf .false))
  | negInfinity : lib = .py → Denotes lib ['-', 'I', 'n', 'f', 'i', 'n', 'i', 't', 'y'] (.float (.inf .true))
  | string {t s : List Char} : StringText t s → Denotes lib ('"' :: (t ++ ['"'])) (.str (String.ofList s))
  | emptyArray {w : List Char} : Blank w → Denotes lib ('[' :: (w ++ [']'])) (.arr [])
  | array {t : List Char} {l : List Json} : Elements lib t l → Denotes lib ('[' :: (t ++ [']'])) (.arr l)
  | emptyObject {w : List Char} : Blank w → Denotes lib ('{' :: (w ++ ['}'])) (.obj [])
  | object {t : List Char} {l : List (String × Json)} : Members lib t l →
      Denotes lib ('{' :: (t ++ ['}'])) (.obj (merged l))

/-- values with commas between them (section 5) -/
inductive Elements (lib : Lib) : List Char → List Json → Prop
  | one {a t b : List Char} {v : Json} : Blank a → Denotes lib t v → Blank b → Elements lib (a ++ (t ++ b)) [v]
  | more {a t b u : List Char} {v : Json} {l : List Json} : Blank a → Denotes lib t v → Blank b → Elements lib u l →
      Elements lib (a ++ (t ++ (b ++ ',' :: u))) (v :: l)

/-- members with commas between them (section 4) -/
inductive Members (lib : Lib) : List Char → List (String × Json) → Prop
  | one {a n b c t d s : List Char} {v : Json} : Blank a → StringText n s → Blank b → Blank c → Denotes lib t v → Blank d →
      Members lib (a ++ '"' :: (n ++ '"' :: (b ++ ':' :: (c ++ (t ++ d))))) [(String.ofList s, v)]
  | more {a n b c t d u s : List Char} {v : Json} {l : List (String × Json)} : Blank a → StringText n s → Blank b →
      Blank c → Denotes lib t v → Blank d → Members lib u l →
      Members lib (a ++ '"' :: (n ++ '"' :: (b ++ ':' :: (c ++ (t ++ (d ++ ',' :: u)))))) ((String.ofList s, v) :: l)

end

/-- a JSON text: a value and white space around it -/
def IsText (lib : Lib) (t : List Char) (j : Json) : Prop :=
  ∃ a v b, Blank a ∧ Denotes lib v j ∧ Blank b ∧ t = a ++ (v ++ b)

/-- nothing or a byte order mark (section 8.1: not to be written, may be ignored) -/
def Bom (t : List Char) : Prop := t = [] ∨ t = [Char.ofNat 0xFEFF]

end JsonText

end Z5
