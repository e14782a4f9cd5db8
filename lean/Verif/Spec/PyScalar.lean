import Verif.Model.PyScalar

/-!
# What assigned numbers should be stored as (C70)
-/

namespace Z5

/-- A finite number, or not: `Dbl.fin` up to the largest double -/
def Dbl.maxDouble : Nat := (2 ^ 53 - 1) * 2 ^ 2045

/-- What nanobind documents of `nb::cast`.  An integer is converted to an integer type if it is one of its values; a `float`
    is not, or (for the `float` of numpy) its integral part is.  A `float` is converted to `double` as it is, an integer to
    the nearest double, if that is finite.  Complex numbers are only converted to complex numbers. -/
structure NbCast.Ok (N : NbCast) : Prop where
  intInt : ∀ lo hi i, N.toInt lo hi (.int i) = if lo ≤ i ∧ i < hi then some i else none
  intFloat : ∀ lo hi d t, N.toInt lo hi (.float d) = some t → d.trunc = some t ∧ lo ≤ t ∧ t < hi
  intComplex : ∀ lo hi re im, N.toInt lo hi (.complex re im) = none
  doubleInt : ∀ i : Int, N.toDouble (.int i) = if Dbl.roundNat i.natAbs * Dbl.one ≤ Dbl.maxDouble then some (.ofInt i) else none
  doubleFloat : ∀ d, N.toDouble (.float d) = some d
  doubleComplex : ∀ re im, N.toDouble (.complex re im) = none

/-- A `float` of C++: 24 significant bits, and a multiple of 2^-149, as a number of units of 2^-1074 -/
def Dbl.IsFloat (u : Nat) : Prop := ∃ m j, m < 2 ^ 24 ∧ 925 ≤ j ∧ j ≤ 1178 ∧ u = m * 2 ^ j

/-- The data types of 64 bits that an integer has to fit in for an integer data type: signed or unsigned as the type is -/
def Datatype.Fits64 (lo : Int) (i : Int) : Prop := if lo < 0 then -2 ^ 63 ≤ i ∧ i < 2 ^ 63 else 0 ≤ i ∧ i < 2 ^ 64

instance (lo i : Int) : Decidable (Datatype.Fits64 lo i) := by
  unfold Datatype.Fits64
  infer_instance

/-- The distance of two numbers -/
def dist (a b : Nat) : Nat := (a - b) + (b - a)

/-- The number `v`, assigned to elements of type `dt`, becomes the value `x`. -/
inductive Stores : Datatype → PyNumber → CValue → Prop where
  /-- Integers modulo the number of values of an integer type: those of the type stay as they are. -/
  | integer {dt lo hi} {i k : Int} : dt.range = some (lo, hi) → Datatype.Fits64 lo i → lo ≤ i + k * (hi - lo) →
      i + k * (hi - lo) < hi → Stores dt (.int i) (.int (i + k * (hi - lo)))
  /-- In integer types, numbers without what is after the point -/
  | truncated {dt lo hi d t} : dt.range = some (lo, hi) → d.trunc = some t → lo ≤ t → t < hi → Stores dt (.float d) (.int t)
  | double {d} : Stores .float64 (.float d) (.flt d)
  /-- An integer as a double: a nearest integer with 53 significant bits -/
  | doubleInt {i : Int} {m j : Nat} : i.natAbs * Dbl.one ≤ Dbl.maxDouble → m < 2 ^ 53 →
      (∀ m' j', m' < 2 ^ 53 → dist i.natAbs (m * 2 ^ j) ≤ dist i.natAbs (m' * 2 ^ j')) →
      Stores .float64 (.int i) (.flt (.fin (decide (i < 0)) (m * 2 ^ j * Dbl.one)))
  | singleNan : Stores .float32 (.float .nan) (.flt .nan)
  | singleInf {neg} : Stores .float32 (.float (.inf neg)) (.flt (.inf neg))
  /-- A nearest `float` -/
  | single {neg u w} : u ≤ Dbl.maxFloat → Dbl.IsFloat w → (∀ w', Dbl.IsFloat w' → dist u w ≤ dist u w') →
      Stores .float32 (.float (.fin neg u)) (.flt (.fin neg w))
  /-- An integer that is a `float` -/
  | singleInt {i : Int} : Dbl.IsFloat (i.natAbs * Dbl.one) →
      Stores .float32 (.int i) (.flt (.fin (decide (i < 0)) (i.natAbs * Dbl.one)))

end Z5
