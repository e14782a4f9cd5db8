import Verif.Model.Metadata
import Verif.Model.Index

/-!
# Numbers that are assigned from Python

`ds[index] = number`: the conversion of the number to the data type of the dataset in `src/python/lib/dataset.cxx`, with the
conversions of nanobind as a parameter.
-/

namespace Z5

/-- A number in Python (`numbers.Number`, dataset.py:538); `bool` is an `int`.  Numbers of numpy are like those of Python. -/
inductive PyNumber where
  | int (i : Int)
  | float (d : Dbl)
  | complex (re im : Dbl)
  deriving DecidableEq, Repr

/-- A value of an element type of C++; `flt` for `float` and `double`, `cpx` for the complex types -/
inductive CValue where
  | int (i : Int)
  | flt (d : Dbl)
  | cpx (re im : Dbl)
  deriving DecidableEq, Repr

/-- `nb::cast` of nanobind: to the integer type with values `lo ≤ i < hi`, to `double`, and to `std::complex<double>`;
    `none` is an exception. -/
structure NbCast where
  toInt : (lo hi : Int) → PyNumber → Option Int
  toDouble : PyNumber → Option Dbl
  toComplex : PyNumber → Option (Dbl × Dbl)

/-- `static_cast` of an integer to the integer type with values `lo ≤ i < hi`: modulo `hi - lo` -/
def wrapInt (lo hi i : Int) : Int := lo + (i - lo) % (hi - lo)

/-- dataset.cxx:91-96 of `writePyScalarCasted` with an integer type: the values of `T`, and those of `CAST_T` -/
def castToInt (N : NbCast) (lo hi clo chi : Int) (v : PyNumber) : Res CValue :=
  match N.toInt clo chi v with
  | some i => .ok (.int (wrapInt lo hi i))
  | none =>
    match N.toDouble v with
    | some d => do return .int (← d.toInt lo hi)
    | none => .throw .runtimeError

/-- dataset.cxx:91-96 of `writePyScalarCasted` with `CAST_T = double`; `conv` is `static_cast<T>` -/
def castToFloat (N : NbCast) (conv : Dbl → Res Dbl) (v : PyNumber) : Res CValue :=
  match N.toDouble v with
  | some d => do return .flt (← conv d)
  | none =>
    match N.toDouble v with
    | some d => do return .flt (← conv d)
    | none => .throw .runtimeError

/-- dataset.cxx:91-96 of `writePyScalarCasted` with `CAST_T = std::complex<double>` -/
def castToComplex (N : NbCast) (conv : Dbl → Res Dbl) (v : PyNumber) : Res CValue :=
  match N.toComplex v with
  | some (re, im) => do return .cpx (← conv re) (← conv im)
  | none =>
    match N.toDouble v with
    | some d => do return .cpx (← conv d) .zero
    | none => .throw .runtimeError

/-- dataset.cxx:292-333 of `write_scalar` -/
def castScalar (N : NbCast) (v : PyNumber) : Datatype → Res CValue
  | .int8 => castToInt N (-2 ^ 7) (2 ^ 7) (-2 ^ 63) (2 ^ 63) v
  | .int16 => castToInt N (-2 ^ 15) (2 ^ 15) (-2 ^ 63) (2 ^ 63) v
  | .int32 => castToInt N (-2 ^ 31) (2 ^ 31) (-2 ^ 63) (2 ^ 63) v
  | .int64 => castToInt N (-2 ^ 63) (2 ^ 63) (-2 ^ 63) (2 ^ 63) v
  | .uint8 => castToInt N 0 (2 ^ 8) 0 (2 ^ 64) v
  | .uint16 => castToInt N 0 (2 ^ 16) 0 (2 ^ 64) v
  | .uint32 => castToInt N 0 (2 ^ 32) 0 (2 ^ 64) v
  | .uint64 => castToInt N 0 (2 ^ 64) 0 (2 ^ 64) v
  | .float32 => castToFloat N Dbl.toFloat v
  | .float64 => castToFloat N .ok v
  | .complex64 => castToComplex N Dbl.toFloat v
  | .complex128 => castToComplex N .ok v
  | .complex256 => .throw .runtimeError

/-- `str(self.dtype)`, dataset.py:395-398, lib/dataset.cxx:236: `dtypeToN5()[...]` is an empty text for types that are not in
    the map, and `np.dtype('')` is a `TypeError`. -/
def pyDtypeName (dt : Datatype) : Res String :=
  match enumAt Datatype.dtypeToN5 dt with
  | .ok name => .ok name
  | _ => .throw .typeError

/-- dataset.cxx:285-333 `write_scalar`, called with `str(self.dtype)` (dataset.py:541): the name of
    the data type, then its number again, then the conversion and `writeScalar`.  `write` is `writeScalar` of the dataset for
    the element type. -/
def pyWriteScalar {α : Type} (N : NbCast) (dt : Datatype) (write : List Nat → List Nat → CValue → Res (List α))
    (off shape : List Nat) (v : PyNumber) : Res (List α) := do
  let name ← pyDtypeName dt
  let dt' ← mapAt Datatype.n5ToDtype name
  let x ← castScalar N v dt'
  write off shape x

/-- dataset.py:518-542 `__setitem__` with a number -/
def pySetNumber {α : Type} (N : NbCast) (dt : Datatype) (write : List Nat → List Nat → CValue → Res (List α))
    (shape : List Nat) (index : List PyItem) (v : PyNumber) : Res (List α) :=
  pySetScalar (pyWriteScalar N dt write) shape index v

end Z5
