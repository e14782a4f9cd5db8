import Verif.Model.JsonText

/-!
# Specification: what a JSON document or an attribute is after it has been written and read
-/

namespace Z5

namespace JsonText

/-- A number as JSON (RFC 8259, section 6) writes it -/
structure Literal where
  minus : Bool
  int : List Char
  frac : Option (List Char)
  /-- `e` or `E`, a sign or none, digits -/
  exp : Option (Char × Option Char × List Char)

namespace Literal

/-- one or more decimal digits -/
def Digits1 (l : List Char) : Prop := l ≠ [] ∧ ∀ c ∈ l, '0'.toNat ≤ c.toNat ∧ c.toNat ≤ '9'.toNat

structure WF (x : Literal) : Prop where
  int : Digits1 x.int
  /-- no superfluous zero -/
  zero : x.int = ['0'] ∨ x.int.head? ≠ some '0'
  frac : ∀ f, x.frac = some f → Digits1 f
  exp : ∀ m s e, x.exp = some (m, s, e) → (m = 'e' ∨ m = 'E') ∧ (s = none ∨ s = some '+' ∨ s = some '-') ∧ Digits1 e

def text (x : Literal) : List Char :=
  (if x.minus then ['-'] else []) ++ (x.int ++
    ((match x.frac with | none => [] | some f => '.' :: f) ++
      (match x.exp with | none => [] | some (m, s, e) => m :: (s.toList ++ e))))

/-- the power of ten -/
def exponent (x : Literal) : Int :=
  (match x.exp with
    | none => 0
    | some (_, s, e) => if s = some '-' then -(natOf e : Int) else (natOf e : Int)) - ((x.frac.getD []).length : Int)

/-- the nearest double (C80: `c80_nearest`) -/
def value (x : Literal) : Dbl := Dbl.ofDecimal x.minus (natOf (x.int ++ x.frac.getD [])) x.exponent

end Literal

/-- What is asked of the digits that a library writes for a finite double: they are a JSON number with a fraction or an exponent,
    and the double nearest to it is the one that was written. -/
def Digits.Lawful (dg : Digits) : Prop :=
  ∀ neg u, (Dbl.fin neg u).Representable →
    ∃ x : Literal, x.WF ∧ dg.text (.fin neg u) = x.text ∧ (x.frac.isSome || x.exp.isSome) = true ∧ x.value = .fin neg u

/-- how far two numbers are from each other -/
def dist (a b : Nat) : Nat := (a - b) + (b - a)

mutual

/-- the values there are: no object has two members with the same key, and doubles have 53 bits -/
def Valid : Json → Prop
  | .null | .bool _ | .int _ | .str _ => True
  | .float d => d.Representable
  | .arr l => ValidList l
  | .obj l => (l.map (·.1)).Nodup ∧ ValidMembers l

def ValidList : List Json → Prop
  | [] => True
  | v :: l => Valid v ∧ ValidList l

def ValidMembers : List (String × Json) → Prop
  | [] => True
  | (_, v) :: l => Valid v ∧ ValidMembers l

end

mutual

/-- the values that both libraries can hold and JSON can express: integers fit into 64 bits (signed or unsigned), doubles are
    finite. -/
def Plain : Json → Prop
  | .null | .bool _ | .str _ => True
  | .int i => -2 ^ 63 ≤ i ∧ i < 2 ^ 64
  | .float d => d.Representable ∧ ∃ neg u, d = .fin neg u
  | .arr l => PlainList l
  | .obj l => (l.map (·.1)).Nodup ∧ PlainMembers l

def PlainList : List Json → Prop
  | [] => True
  | v :: l => Plain v ∧ PlainList l

def PlainMembers : List (String × Json) → Prop
  | [] => True
  | (_, v) :: l => Plain v ∧ PlainMembers l

end

/-- what `to` makes of a double that `frm` wrote: of those that are not finite, `nlohmann::json` writes `null`, and Python a
    keyword that only Python reads. -/
def receivedDbl (frm to : Lib) : Dbl → Option Json
  | .fin neg u => some (.float (.fin neg u))
  | d => match frm, to with
    | .cpp, _ => some .null
    | .py, .py => some (.float d)
    | .py, .cpp => none

/-- what `to` makes of an integer: `nlohmann::json` takes one that does not fit into 64 bits for the double nearest to it, if
    there is one. -/
def receivedInt (to : Lib) (i : Int) : Option Json :=
  match to with
  | .py => some (.int i)
  | .cpp => if -2 ^ 63 ≤ i ∧ i < 2 ^ 64 then some (.int i)
      else match Dbl.ofDecimal (decide (i < 0)) i.natAbs 0 with
        | .fin neg u => some (.float (.fin neg u))
        | _ => none

mutual

/-- what `to` reads from what `frm` wrote; `none`: it refuses the text. -/
def received (frm to : Lib) : Json → Option Json
  | .null => some .null
  | .bool b => some (.bool b)
  | .str s => some (.str s)
  | .int i => receivedInt to i
  | .float d => receivedDbl frm to d
  | .arr l => match receivedList frm to l with
    | none => none
    | some l => some (.arr l)
  | .obj l => match receivedMembers frm to l with
    | none => none
    | some l => some (.obj l)

def receivedList (frm to : Lib) : List Json → Option (List Json)
  | [] => some []
  | v :: l => match received frm to v with
    | none => none
    | some v => match receivedList frm to l with
      | none => none
      | some l => some (v :: l)

def receivedMembers (frm to : Lib) : List (String × Json) → Option (List (String × Json))
  | [] => some []
  | (k, v) :: l => match received frm to v with
    | none => none
    | some v => match receivedMembers frm to l with
      | none => none
      | some l => some ((k, v) :: l)

end

/-- the value is or has, possibly deep inside, a NaN or an infinite number -/
inductive HasNonFinite : Json → Prop
  | here {d : Dbl} : (∀ neg u, d ≠ .fin neg u) → HasNonFinite (.float d)
  | arr {l : List Json} {v : Json} : v ∈ l → HasNonFinite v → HasNonFinite (.arr l)
  | obj {l : List (String × Json)} {k : String} {v : Json} : (k, v) ∈ l → HasNonFinite v → HasNonFinite (.obj l)

/-- `b` is what is on the disk while the text `full` is being written: less than all of it. -/
def Torn (b full : Bytes) : Prop := ∃ s, s ≠ [] ∧ b ++ s = full

/-- is it an object, an array or a string? -/
def Closed : Json → Prop
  | .obj _ | .arr _ | .str _ => True
  | _ => False

end JsonText

end Z5
