import Verif.Model.Json
import Verif.Model.Bytes
import Verif.Model.Util

/-!
# JSON texts

The texts that stand between a JSON value and the bytes of a document: `nlohmann::json`'s `dump` and `parse`
(also as `<<` and `>>`), Python's `json.dumps` and `json.loads`, and UTF-8.  Both libraries are outside of /repo; what is
modelled is their documented behaviour, for the calls the code makes.

Simplifications: the decimal digits that a library chooses for a `double` are a parameter (`Digits`); the order of the
members of an object is kept (`nlohmann` sorts them; the association lists of `Json` stand for maps); strings are sequences of
Unicode scalar values (a Python string with lone surrogates and a C++ string that is not UTF-8 are not modelled); limits on the
depth of nesting (Python's recursion limit) are not modelled.
-/

namespace Z5

/-! ## UTF-8 -/

namespace Utf8

/-- the bytes of a character -/
def encodeChar (c : Char) : Bytes :=
  let n := c.toNat
  if n < 0x80 then [BitVec.ofNat 8 n]
  else if n < 0x800 then [BitVec.ofNat 8 (0xC0 + n / 64), BitVec.ofNat 8 (0x80 + n % 64)]
  else if n < 0x10000 then
    [BitVec.ofNat 8 (0xE0 + n / 4096), BitVec.ofNat 8 (0x80 + n / 64 % 64), BitVec.ofNat 8 (0x80 + n % 64)]
  else
    [BitVec.ofNat 8 (0xF0 + n / 262144), BitVec.ofNat 8 (0x80 + n / 4096 % 64), BitVec.ofNat 8 (0x80 + n / 64 % 64),
      BitVec.ofNat 8 (0x80 + n % 64)]

/-- the bytes of a text -/
def encode (t : List Char) : Bytes := t.flatMap encodeChar

/-- the six bits of a continuation byte -/
def cont (b : Byte) : Option Nat := if 0x80 ≤ b.toNat ∧ b.toNat < 0xC0 then some (b.toNat - 0x80) else none

/-- The first character, as the scanner of `nlohmann::json` accepts it: no overlong forms, no surrogates, nothing beyond
    U+10FFFF. -/
def decodeChar : Bytes → Option (Char × Bytes)
  | [] => none
  | b :: r =>
    if b.toNat < 0x80 then some (Char.ofNat b.toNat, r)
    else if b.toNat < 0xC2 then none
    else if b.toNat < 0xE0 then
      match r with
      | x :: r => match cont x with
        | some x => some (Char.ofNat ((b.toNat - 0xC0) * 64 + x), r)
        | none => none
      | [] => none
    else if b.toNat < 0xF0 then
      match r with
      | x :: y :: r => match cont x, cont y with
        | some x, some y =>
          let n := (b.toNat - 0xE0) * 4096 + x * 64 + y
          if n < 0x800 ∨ (0xD800 ≤ n ∧ n < 0xE000) then none else some (Char.ofNat n, r)
        | _, _ => none
      | _ => none
    else if b.toNat < 0xF5 then
      match r with
      | x :: y :: z :: r => match cont x, cont y, cont z with
        | some x, some y, some z =>
          let n := (b.toNat - 0xF0) * 262144 + x * 4096 + y * 64 + z
          if n < 0x10000 ∨ 0x110000 ≤ n then none else some (Char.ofNat n, r)
        | _, _, _ => none
      | _ => none
    else none

/-- The characters up to the first byte that is not UTF-8, and the bytes from there on (`n`: the number of steps; the number of
    bytes suffices). -/
def decode : Nat → Bytes → List Char × Bytes
  | 0, b => ([], b)
  | n + 1, b => match decodeChar b with
    | none => ([], b)
    | some (c, r) => ((c :: (decode n r).1), (decode n r).2)

end Utf8

/-! ## Decimal numbers -/

namespace Dbl

/-- the nearest integer to `n / d`, ties to even -/
def roundDiv (n d : Nat) : Nat :=
  let q := n / d
  let r := n % d
  if 2 * r < d then q
  else if 2 * r = d then (if q % 2 = 0 then q else q + 1)
  else q + 1

/-- the largest double, `(2^53 - 1) * 2^971`, in units -/
def maxUnits : Nat := (2 ^ 53 - 1) * 2 ^ 2045

/-- `strtod`, Python's `float`: the double nearest to `± m * 10^e`, ties to even, infinite beyond the largest. -/
def ofDecimal (neg : Bool) (m : Nat) (e : Int) : Dbl :=
  let num := m * 10 ^ e.toNat * one
  let den := 10 ^ (-e).toNat
  let b := excess (num / den)
  let u := roundDiv num (den * 2 ^ b) * 2 ^ b
  if u ≤ maxUnits then .fin neg u else .inf neg

end Dbl

namespace JsonText

/-- the value of a sequence of decimal digits -/
def natOf (l : List Char) : Nat := l.foldl (fun n c => 10 * n + (c.toNat - '0'.toNat)) 0

/-- A number as it is written: the digits of the integer part, the digits after the point, the exponent -/
structure Number where
  neg : Bool
  int : List Char
  frac : Option (List Char)
  exp : Option (Bool × List Char)
  deriving DecidableEq

namespace Number

/-- has it a fraction or an exponent? -/
def isFloat (t : Number) : Bool := t.frac.isSome || t.exp.isSome

/-- all digits in front of the exponent -/
def mantissa (t : Number) : Nat := natOf (t.int ++ t.frac.getD [])

/-- the power of ten by which the mantissa is multiplied -/
def exponent (t : Number) : Int :=
  (match t.exp with
    | none => 0
    | some (neg, l) => if neg then -(natOf l : Int) else (natOf l : Int)) - ((t.frac.getD []).length : Int)

/-- as a double -/
def toDbl (t : Number) : Dbl := Dbl.ofDecimal t.neg t.mantissa t.exponent

/-- as an integer, for a number with neither fraction nor exponent -/
def toInt (t : Number) : Int := if t.neg then -(natOf t.int : Int) else (natOf t.int : Int)

end Number

/-- decimal digit -/
def isDigit (c : Char) : Bool := decide ('0'.toNat ≤ c.toNat) && decide (c.toNat ≤ '9'.toNat)

/-- the digits that a text begins with, and what follows -/
def digits : List Char → List Char × List Char
  | [] => ([], [])
  | c :: r => if isDigit c then (c :: (digits r).1, (digits r).2) else ([], c :: r)

/-- one or more digits -/
def digits1 (t : List Char) : Option (List Char × List Char) :=
  if (digits t).1.isEmpty then none else some (digits t)

/-- `0`, or digits that do not begin with `0` -/
def scanInt : List Char → Option (List Char × List Char)
  | [] => none
  | c :: r => if c = '0' then some (['0'], r) else digits1 (c :: r)

/-- `.` and digits, if there is a `.` -/
def scanFrac : List Char → Option (Option (List Char) × List Char)
  | [] => some (none, [])
  | c :: r => if c = '.' then (digits1 r).map fun x => (some x.1, x.2) else some (none, c :: r)

/-- a sign of the exponent -/
def scanSign : List Char → Bool × List Char
  | [] => (false, [])
  | c :: r => if c = '-' then (true, r) else if c = '+' then (false, r) else (false, c :: r)

/-- `e` or `E`, a sign and digits, if there is an `e` or `E` -/
def scanExp : List Char → Option (Option (Bool × List Char) × List Char)
  | [] => some (none, [])
  | c :: r =>
    if c = 'e' ∨ c = 'E' then (digits1 (scanSign r).2).map fun x => (some ((scanSign r).1, x.1), x.2)
    else some (none, c :: r)

/-- `-`, if there is one -/
def scanMinus : List Char → Bool × List Char
  | [] => (false, [])
  | c :: r => if c = '-' then (true, r) else (false, c :: r)

/-- The longest number that a text begins with (RFC 8259); `none`: it begins with no number, or with one that stops after `-`,
    `.`, `e` or a sign of the exponent -/
def scanNumber (t : List Char) : Option (Number × List Char) :=
  match scanInt (scanMinus t).2 with
  | none => none
  | some (i, r) => match scanFrac r with
    | none => none
    | some (f, r) => match scanExp r with
      | none => none
      | some (e, r) => some (⟨(scanMinus t).1, i, f, e⟩, r)

/-! ## Strings -/

/-- the value of a hexadecimal digit -/
def hexVal (c : Char) : Option Nat :=
  if '0'.toNat ≤ c.toNat ∧ c.toNat ≤ '9'.toNat then some (c.toNat - '0'.toNat)
  else if 'a'.toNat ≤ c.toNat ∧ c.toNat ≤ 'f'.toNat then some (c.toNat - 'a'.toNat + 10)
  else if 'A'.toNat ≤ c.toNat ∧ c.toNat ≤ 'F'.toNat then some (c.toNat - 'A'.toNat + 10)
  else none

/-- four hexadecimal digits -/
def hex4 : List Char → Option (Nat × List Char)
  | a :: b :: c :: d :: r => match hexVal a, hexVal b, hexVal c, hexVal d with
    | some a, some b, some c, some d => some (((a * 16 + b) * 16 + c) * 16 + d, r)
    | _, _, _, _ => none
  | _ => none

/-- what follows `\u`: a high surrogate has to be followed by the escape of a low one, which may not come alone.  (Simplified for
    Python, which takes half a pair for a string that it cannot encode as UTF-8; here such texts are refused.) -/
def scanUnicode (t : List Char) : Option (Option Char × List Char) :=
  match hex4 t with
  | none => none
  | some (v, r) =>
    if 0xD800 ≤ v ∧ v < 0xDC00 then
      match r with
      | x :: y :: r => if x = '\\' ∧ y = 'u' then
          match hex4 r with
          | none => none
          | some (w, r) =>
            if 0xDC00 ≤ w ∧ w < 0xE000 then
              some (some (Char.ofNat (0x10000 + (v - 0xD800) * 0x400 + (w - 0xDC00))), r)
            else none
        else none
      | _ => none
    else if 0xDC00 ≤ v ∧ v < 0xE000 then none
    else some (some (Char.ofNat v), r)

/-- what follows `\` -/
def scanEscape : List Char → Option (Option Char × List Char)
  | [] => none
  | c :: r =>
    if c = '"' ∨ c = '\\' ∨ c = '/' then some (some c, r)
    else if c = 'b' then some (some (Char.ofNat 8), r)
    else if c = 'f' then some (some (Char.ofNat 12), r)
    else if c = 'n' then some (some (Char.ofNat 10), r)
    else if c = 'r' then some (some (Char.ofNat 13), r)
    else if c = 't' then some (some (Char.ofNat 9), r)
    else if c = 'u' then scanUnicode r
    else none

/-- The next character of a string, or (`none`) its end; control characters must be escaped. -/
def scanChar : List Char → Option (Option Char × List Char)
  | [] => none
  | c :: r =>
    if c = '"' then some (none, r)
    else if c = '\\' then scanEscape r
    else if c.toNat < 0x20 then none
    else some (some c, r)

/-- the rest of a string, from behind the opening quotation mark (`n`: the number of steps) -/
def scanString : Nat → List Char → Option (List Char × List Char)
  | 0, _ => none
  | n + 1, t => match scanChar t with
    | none => none
    | some (none, r) => some ([], r)
    | some (some c, r) => match scanString n r with
      | none => none
      | some (s, r) => some (c :: s, r)

/-! ## `parse` -/

/-- The two readers -/
inductive Lib where
  /-- `nlohmann::json` -/
  | cpp
  /-- Python's `json` -/
  | py
  deriving DecidableEq

/-- white space -/
def isWs (c : Char) : Bool := c = ' ' || c = '\t' || c = '\n' || c = '\r'

/-- skip white space -/
def skipWs : List Char → List Char
  | [] => []
  | c :: r => if isWs c then skipWs r else c :: r

/-- white space, then the character `x` -/
def expect (x : Char) (t : List Char) : Option (List Char) :=
  match skipWs t with
  | [] => none
  | c :: r => if c = x then some r else none

/-- the text continues with `w` -/
def keyword (w : List Char) : List Char → Option (List Char) :=
  match w with
  | [] => fun t => some t
  | c :: w => fun t => match t with
    | [] => none
    | d :: r => if c = d then keyword w r else none

/-- The value of a number.  `nlohmann::json`: `strtoull` and `strtoll` for numbers with neither fraction nor exponent, and
    `strtod` for the others and for integers that do not fit into 64 bits; a number that is infinite as a double is an error
    (`out_of_range`).  Python: integers of any size, and `float`. -/
def numberValue (lib : Lib) (t : Number) : Option Json :=
  match lib with
  | .cpp =>
    if !t.isFloat && decide (-2 ^ 63 ≤ t.toInt ∧ t.toInt < 2 ^ 64) then some (.int t.toInt)
    else match t.toDbl with
      | .fin neg u => some (.float (.fin neg u))
      | _ => none
  | .py => if t.isFloat then some (.float t.toDbl) else some (.int t.toInt)

/-- A value that begins with none of `{ [ "`: keywords and numbers.  Python knows three more keywords. -/
def parseAtom (lib : Lib) (t : List Char) : Option (Json × List Char) :=
  match keyword ['n', 'u', 'l', 'l'] t with
  | some r => some (.null, r)
  | none => match keyword ['t', 'r', 'u', 'e'] t with
    | some r => some (.bool true, r)
    | none => match keyword ['f', 'a', 'l', 's', 'e'] t with
      | some r => some (.bool false, r)
      | none => match (if lib = .py then keyword ['N', 'a', 'N'] t else none) with
        | some r => some (.float .nan, r)
        | none => match (if lib = .py then keyword ['I', 'n', 'f', 'i', 'n', 'i', 't', 'y'] t else none) with
          | some r => some (.float (.inf false), r)
          | none => match (if lib = .py then keyword ['-', 'I', 'n', 'f', 'i', 'n', 'i', 't', 'y'] t else none) with
            | some r => some (.float (.inf true), r)
            | none => match scanNumber t with
              | none => none
              | some (x, r) => match numberValue lib x with
                | none => none
                | some j => some (j, r)

mutual

/-- a value, and the text behind it (`n`: the number of steps; the length of the text suffices) -/
def parseValue (lib : Lib) : Nat → List Char → Option (Json × List Char)
  | 0, _ => none
  | n + 1, t => match skipWs t with
    | [] => none
    | c :: r =>
      if c = '{' then
        match expect '}' r with
        | some r => some (.obj [], r)
        | none => parseMembers lib n [] r
      else if c = '[' then
        match expect ']' r with
        | some r => some (.arr [], r)
        | none => parseElems lib n [] r
      else if c = '"' then
        match scanString n r with
        | none => none
        | some (s, r) => some (.str (String.ofList s), r)
      else parseAtom lib (c :: r)

/-- the elements of an array, behind those in `acc`, and the bracket -/
def parseElems (lib : Lib) : Nat → List Json → List Char → Option (Json × List Char)
  | 0, _, _ => none
  | n + 1, acc, t => match parseValue lib n t with
    | none => none
    | some (v, r) => match expect ',' r with
      | some r => parseElems lib n (acc ++ [v]) r
      | none => match expect ']' r with
        | some r => some (.arr (acc ++ [v]), r)
        | none => none

/-- the members of an object, behind those in `acc`, and the brace: the last of several members with the same key counts. -/
def parseMembers (lib : Lib) : Nat → List (String × Json) → List Char → Option (Json × List Char)
  | 0, _, _ => none
  | n + 1, acc, t => match expect '"' t with
    | none => none
    | some r => match scanString n r with
      | none => none
      | some (k, r) => match expect ':' r with
        | none => none
        | some r => match parseValue lib n r with
          | none => none
          | some (v, r) => match expect ',' r with
            | some r => parseMembers lib n (assocSet acc (String.ofList k) v) r
            | none => match expect '}' r with
              | some r => some (.obj (assocSet acc (String.ofList k) v), r)
              | none => none

end

/-- nothing but white space follows.  `nlohmann::json` takes a zero byte for the end. -/
def atEnd (lib : Lib) (t : List Char) : Bool :=
  match skipWs t with
  | [] => true
  | c :: _ => lib = .cpp && c.toNat = 0

/-- a byte order mark is skipped -/
def skipBom : List Char → List Char
  | [] => []
  | c :: r => if c.toNat = 0xFEFF then r else c :: r

/-- `nlohmann::json::parse(text)` (s3/attributes.hxx:22, s3/factory.hxx:46, 64, src/python/lib/attributes.cxx:17,
    dataset.cxx:254, factory.cxx:32): the whole text has to be one value; `none` stands for the exception. -/
def cppParse (b : Bytes) : Option Json :=
  let t := Utf8.decode b.length b
  match parseValue .cpp (b.length + 2) (skipBom t.1) with
  | none => none
  | some (j, r) => if atEnd .cpp r && (t.2.isEmpty || !(skipWs r).isEmpty) then some j else none

/-- `file >> j` (filesystem/attributes.hxx:39, filesystem/metadata.hxx:20, filesystem/factory.hxx:26, 48): like `parse`,
    but what follows the value is not looked at. -/
def cppRead (b : Bytes) : Option Json :=
  match parseValue .cpp (b.length + 2) (skipBom (Utf8.decode b.length b).1) with
  | none => none
  | some (j, _) => some j

/-- `json.loads(text)` (attribute_manager.py, group.py, dataset.py) -/
def pyLoads (t : List Char) : Option Json :=
  match parseValue .py (t.length + 2) t with
  | none => none
  | some (j, r) => if atEnd .py r then some j else none

/-! ## `dump` -/

/-- The decimal digits that a library writes for a finite `double` -/
structure Digits where
  text : Dbl → List Char

/-- How a library writes -/
structure Style where
  lib : Lib
  /-- characters outside of ASCII are written as `\uxxxx` -/
  ascii : Bool
  /-- what follows `,` and `:` -/
  comma : List Char
  colon : List Char
  /-- members and elements go on lines of their own, indented by so many blanks more than what is around them -/
  indent : Option Nat

/-- `j.dump()`, `file << j` (filesystem/attributes.hxx:47, src/python/lib/attributes.cxx:24, handles.cxx:83) -/
def compact : Style := ⟨.cpp, false, [], [], none⟩

/-- `j.dump(4)` (s3/attributes.hxx:29), `file << std::setw(4) << j` (filesystem/attributes.hxx:54, filesystem/metadata.hxx:14) -/
def pretty : Style := ⟨.cpp, false, [], [' '], some 4⟩

/-- `json.dumps(j)` (attribute_manager.py) -/
def dumps : Style := ⟨.py, true, [' '], [' '], none⟩

/-- a hexadecimal digit, in lower case -/
def hexDigit (n : Nat) : Char := if n < 10 then Char.ofNat ('0'.toNat + n) else Char.ofNat ('a'.toNat + (n - 10))

/-- `\uxxxx` -/
def unicodeEscape (n : Nat) : List Char :=
  ['\\', 'u', hexDigit (n / 4096 % 16), hexDigit (n / 256 % 16), hexDigit (n / 16 % 16), hexDigit (n % 16)]

/-- a character in a string -/
def writeChar (ascii : Bool) (c : Char) : List Char :=
  if c = '"' then ['\\', '"']
  else if c = '\\' then ['\\', '\\']
  else if c.toNat = 8 then ['\\', 'b']
  else if c.toNat = 12 then ['\\', 'f']
  else if c.toNat = 10 then ['\\', 'n']
  else if c.toNat = 13 then ['\\', 'r']
  else if c.toNat = 9 then ['\\', 't']
  else if c.toNat < 0x20 ∨ (ascii ∧ 0x7F ≤ c.toNat) then
    if c.toNat < 0x10000 then unicodeEscape c.toNat
    else unicodeEscape (0xD800 + (c.toNat - 0x10000) / 0x400) ++ unicodeEscape (0xDC00 + (c.toNat - 0x10000) % 0x400)
  else [c]

/-- the characters of a string and the closing quotation mark -/
def writeRest (ascii : Bool) (s : List Char) : List Char := s.flatMap (writeChar ascii) ++ ['"']

/-- a string -/
def writeString (ascii : Bool) (s : String) : List Char := '"' :: writeRest ascii s.toList

/-- an integer -/
def writeInt (i : Int) : List Char := if i < 0 then '-' :: toStr i.natAbs else toStr i.natAbs

/-- a double: `nlohmann::json` writes `null` for those that are not finite, Python a keyword. -/
def writeDbl (lib : Lib) (dg : Digits) (d : Dbl) : List Char :=
  match lib, d with
  | _, .fin neg u => dg.text (.fin neg u)
  | .cpp, _ => ['n', 'u', 'l', 'l']
  | .py, .nan => ['N', 'a', 'N']
  | .py, .inf neg => if neg then ['-', 'I', 'n', 'f', 'i', 'n', 'i', 't', 'y'] else ['I', 'n', 'f', 'i', 'n', 'i', 't', 'y']

/-- a new line with `k` blanks, if the style has such -/
def newline (st : Style) (k : Nat) : List Char :=
  match st.indent with
  | none => []
  | some _ => '\n' :: List.replicate k ' '

/-- the indentation inside of a container that is indented by `k` -/
def deeper (st : Style) (k : Nat) : Nat := k + st.indent.getD 0

mutual

/-- a value inside of a container whose contents are indented by `k` -/
def write (st : Style) (dg : Digits) (k : Nat) : Json → List Char
  | .null => ['n', 'u', 'l', 'l']
  | .bool b => if b then ['t', 'r', 'u', 'e'] else ['f', 'a', 'l', 's', 'e']
  | .int i => writeInt i
  | .float d => writeDbl st.lib dg d
  | .str s => writeString st.ascii s
  | .arr l => if l.isEmpty then ['[', ']'] else
      '[' :: (newline st (deeper st k) ++ (writeElems st dg (deeper st k) l ++ (newline st k ++ [']'])))
  | .obj l => if l.isEmpty then ['{', '}'] else
      '{' :: (newline st (deeper st k) ++ (writeMembers st dg (deeper st k) l ++ (newline st k ++ ['}'])))

/-- elements, with commas between them -/
def writeElems (st : Style) (dg : Digits) (k : Nat) : List Json → List Char
  | [] => []
  | v :: l => write st dg k v ++
      (if l.isEmpty then [] else ',' :: (st.comma ++ (newline st k ++ writeElems st dg k l)))

/-- members, with commas between them -/
def writeMembers (st : Style) (dg : Digits) (k : Nat) : List (String × Json) → List Char
  | [] => []
  | (key, v) :: l => writeString st.ascii key ++ (':' :: (st.colon ++ (write st dg k v ++
      (if l.isEmpty then [] else ',' :: (st.comma ++ (newline st k ++ writeMembers st dg k l))))))

end

/-- the text of a document -/
def text (st : Style) (dg : Digits) (j : Json) : List Char := write st dg 0 j

end JsonText

end Z5
