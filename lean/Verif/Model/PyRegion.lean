import Verif.Model.Index

/-!
# Regions in Python

`read_subarray`, `write_subarray`, `read_direct` and `write_direct` of datasets in Python:
`src/python/module/z5py/dataset.py`, `src/python/lib/dataset.cxx`.  Coordinates are integers or `None`.
-/

namespace Z5

/-- The conversion of a list or tuple to `std::vector<std::size_t>`: a `TypeError` for `None`, for negative numbers and for
    numbers that do not fit. -/
def toSizes64 : List (Option Int) → Res (List Nat)
  | [] => .ok []
  | none :: _ => .throw .typeError
  | some b :: bs => do
    let bs ← toSizes64 bs
    if b < 0 ∨ 2 ^ 64 ≤ b then .throw .typeError else return b.toNat :: bs

/-- dataset.py:636: `sto - sta for sta, sto in zip(start, stop)`; a `TypeError` for `None` -/
def pyExtents : List (Option Int) → List (Option Int) → Res (List Int)
  | some a :: starts, some b :: stops => do
    let ns ← pyExtents starts stops
    return (b - a) :: ns
  | [], _ => .ok []
  | _, [] => .ok []
  | _, _ => .throw .typeError

/-- array_access.hxx:164, 503: `offset(roiBeginIter, roiBeginIter + ndim)`, past the end of the vector if it is too short -/
def offsetOf (begin_ : List Nat) (ndim : Nat) : Res (List Nat) :=
  if begin_.length < ndim then .ub else .ok (begin_.take ndim)

/-- dataset.py:623-639 `read_subarray`, dataset.cxx:61-69 `readPySubarray`: the shape of the array that is returned, and the
    tasks that fill it.  `read` is the `readSubarray` of the dataset.  That there is not enough memory for the array is not
    modelled. -/
def pyReadSubarray {α : Type} (read : View → List Nat → Res (List α)) (start stop : List (Option Int)) :
    Res (List Nat × List α) := do
  let extents ← pyExtents start stop
  let out ← npShape extents
  let b ← toSizes64 start
  let off ← offsetOf b out.length
  let ts ← read (makeView out) off
  return (out, ts)

/-- The array that is given to `write_subarray`: one of the element type of the dataset, one of another type of the library, or
    one of a type that the library does not have.  (`np.require` makes the order C.) -/
inductive RegionArg (T : Type) where
  | array (a : NpArray T)
  | otherType (shape : List Nat)
  | notAccepted

/-- dataset.py:606-620 `write_subarray`, dataset.cxx:51-58 `writePySubarray`: the tasks.  `write` is the `writeSubarray` of the
    dataset.  For arrays of another type the shape is checked before the type (array_access.hxx:506-507), with the same
    exception. -/
def pyWriteSubarray {α β : Type} (write : List β → View → List Nat → Res (List α)) (start : List (Option Int))
    (data : RegionArg β) : Res (List α) := do
  match data with
  | .notAccepted => .throw .typeError
  | .otherType shape =>
    let b ← toSizes64 start
    let _ ← offsetOf b shape.length
    .throw .runtimeError
  | .array a =>
    let b ← toSizes64 start
    let off ← offsetOf b a.shape.length
    write a.data (makeView a.shape) off

/-- `slice(start, stop, step)` -/
structure PySlice where
  start : Option Int
  stop : Option Int
  step : Option Int

/-- dataset.py:578, 580, 598, 600: `tuple(slice(0, sh) for sh in shape)` -/
def wholeSlices (shape : List Nat) : List PySlice := shape.map fun (n : Nat) => ⟨some 0, some (n : Int), none⟩

/-- dataset.py:564-583 `read_direct`: what is assigned to `dest[dest_sel]`, which is done by numpy. -/
def pyReadDirect {α : Type} (read : View → List Nat → Res (List α)) (shape : List Nat) (sourceSel : Option (List PySlice)) :
    Res (List Nat × List α) :=
  let sel := sourceSel.getD (wholeSlices shape)
  pyReadSubarray read (sel.map (·.start)) (sel.map (·.stop))

/-- dataset.py:585-603 `write_direct`; `data` is `source[source_sel]`, which is done by numpy. -/
def pyWriteDirect {α β : Type} (write : List β → View → List Nat → Res (List α)) (shape : List Nat) (data : RegionArg β)
    (destSel : Option (List PySlice)) : Res (List α) :=
  let sel := destSel.getD (wholeSlices shape)
  pyWriteSubarray write (sel.map (·.start)) data

end Z5
