import Verif.Basic

/-!
# The batch size of parallel loops

`util/threadpool.hxx:353-354` and `396-397`: how many items are given to a thread at a time is computed with numbers of type `float`.
A `float` that is not negative is a multiple of 2^-149 (its smallest positive value); it is modelled by this multiple.  Operations round
to the closest `float`, ties to even (IEEE 754, `FLT_EVAL_METHOD` 0); numbers beyond the largest `float` do not occur.
-/

namespace Z5.Flt

/-- `n / d` to the closest integer, ties to even -/
def roundDiv (n d : Nat) : Nat :=
  if 2 * (n % d) > d ∨ 2 * (n % d) = d ∧ n / d % 2 = 1 then n / d + 1 else n / d

/-- The closest `float` to `num / den` units: 24 significant bits -/
def round (num den : Nat) : Nat :=
  let e := (Nat.log2 (num / den) + 1) - 24
  roundDiv num (den * 2 ^ e) * 2 ^ e

/-- the number 1 -/
def one : Nat := 2 ^ 149

/-- `float(n)` -/
def ofNat (n : Nat) : Nat := round (n * one) 1

/-- `x / y` -/
def div (x y : Nat) : Nat := round (x * one) y

/-- `x + y` -/
def add (x y : Nat) : Nat := round (x + y) 1

/-- `int(x)`: the fraction is discarded; undefined if the result is not an `int` -/
def toInt (x : Nat) : Res Nat := if x / one < 2 ^ 31 then .ok (x / one) else .ub

end Z5.Flt

namespace Z5

/-- util/threadpool.hxx:353-354, 396-397: `chunkedWorkPerThread` for `workload` items and `nThreads` threads; 3.0f and 0.5f are `float`
    numbers. -/
def poolBatchSize (workload nThreads : Nat) : Res Nat := do
  let workPerThread := Flt.div (Flt.ofNat workload) (Flt.ofNat nThreads)
  let n ← Flt.toInt (Flt.add (Flt.div workPerThread (3 * Flt.one)) (Flt.one / 2))
  return max n 1

end Z5
