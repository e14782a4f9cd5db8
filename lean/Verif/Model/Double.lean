import Verif.Basic

/-!
# Doubles

`double` as IEEE 754 binary64: every finite double is an integer multiple of `2^-1074`, so a finite
double is a sign and a natural number of these units.  NaNs are not told apart.  Only what the
metadata code does with fill values is defined: `isnan`, `isinf`, conversion from and to integers and to `float`.
-/

namespace Z5

inductive Dbl where
  | nan
  | inf (neg : Bool)
  /-- `(-1)^neg * units * 2^-1074` -/
  | fin (neg : Bool) (units : Nat)
  deriving DecidableEq, Repr

namespace Dbl

/-- The value 1 in units. -/
def one : Nat := 2 ^ 1074

/-- The finite doubles: 53 significant bits, at most `(2^53 - 1) * 2^971`. -/
def Representable : Dbl → Prop
  | nan => True
  | inf _ => True
  | fin _ u => ∃ m j, m < 2 ^ 53 ∧ j ≤ 2045 ∧ u = m * 2 ^ j

def zero : Dbl := fin false 0

/-- round to nearest, ties to even, of `n / 2^b`, times `2^b` -/
def roundAt (n b : Nat) : Nat :=
  let q := n / 2 ^ b
  let r := n % 2 ^ b
  (if 2 * r < 2 ^ b then q
   else if 2 * r = 2 ^ b then (if q % 2 = 0 then q else q + 1)
   else q + 1) * 2 ^ b

/-- number of bits beyond the 53 of a double -/
def excess (n : Nat) : Nat := (Nat.log2 n + 1) - 53

/-- conversion of a natural number below `2^64` to `double` (`static_cast<double>` of an unsigned, or
    of the absolute value of a signed integer): exact if 53 bits suffice, otherwise rounded. -/
def roundNat (n : Nat) : Nat := roundAt n (excess n)

/-- `static_cast<double>(i)` for a 64 bit integer -/
def ofInt (i : Int) : Dbl := fin (decide (i < 0)) (roundNat i.natAbs * one)

/-- The value of a double without its fraction; `none` for NaN and infinities. -/
def trunc : Dbl → Option Int
  | nan => none
  | inf _ => none
  | fin neg u => some (if neg then -((u / one : Nat) : Int) else ((u / one : Nat) : Int))

/-- `static_cast<T>(d)` for an integer type with values `lo ≤ i < hi`: the fraction is discarded; undefined
    if the result does not fit. -/
def toInt (lo hi : Int) (d : Dbl) : Res Int :=
  match d.trunc with
  | none => .ub
  | some i => if lo ≤ i ∧ i < hi then .ok i else .ub

/-- The distance of the `float` numbers around a finite number, as an exponent of 2 (units of 2^-1074): 24 significant bits,
    and not below 2^-149 -/
def floatExp (units : Nat) : Nat := max ((Nat.log2 units + 1) - 24) 925

/-- The largest `float`, (2^24 - 1) * 2^104 -/
def maxFloat : Nat := (2 ^ 24 - 1) * 2 ^ 1178

/-- `static_cast<float>(d)`: to nearest, ties to even; undefined for finite numbers beyond the largest `float` (with IEEE
    arithmetic it is infinity or the largest number). -/
def toFloat : Dbl → Res Dbl
  | .nan => .ok .nan
  | .inf neg => .ok (.inf neg)
  | .fin neg u => if u ≤ maxFloat then .ok (.fin neg (roundAt u (floatExp u))) else .ub

end Dbl

end Z5
