import Verif.Model.Access

/-!
# Indexing of the Python module

`src/python/module/z5py/shape_utils.py` and `__getitem__`, `__setitem__` of `dataset.py`.  Python's
`ValueError` is `invalidArgument`, its `IndexError` is `outOfRange`.
-/

namespace Z5

/-- An item of an index.  Other numbers than integers (`int(item)` truncates floats, `True` is 1) and objects of
    other types (`TypeError`) are not modelled. -/
inductive PyItem where
  | int (i : Int)
  | slice (start stop step : Option Int)
  | ellipsis
  deriving DecidableEq, Repr

/-- A normalized slice: `slice(start, stop)`; `start` is `None` for an empty one. -/
structure PyRange where
  start : Option Int
  stop : Int
  deriving DecidableEq, Repr

/-- shape_utils.py:17-24 of `slice_to_start_stop`: the start; `none` for the early `return slice(None, 0)` -/
def sliceStart (start : Option Int) (n : Int) : Option Int :=
  match start with
  | none => some 0
  | some s => if -n ≤ s ∧ s < 0 then some (n + s) else if s < -n ∨ s ≥ n then none else some s

/-- shape_utils.py:26-31 of `slice_to_start_stop`: the stop -/
def sliceStop (stop : Option Int) (n : Int) : Int :=
  match stop with
  | none => n
  | some s => if s > n then n else if s < 0 then n + s else s

/-- shape_utils.py:11-38 `slice_to_start_stop` -/
def sliceToStartStop (start stop step : Option Int) (size : Nat) : Res PyRange :=
  if ¬ (step = none ∨ step = some 1) then .throw .invalidArgument
  else
    match sliceStart start size with
    | none => .ok ⟨none, 0⟩
    | some a =>
      if sliceStop stop size < 1 ∨ sliceStop stop size ≤ a then .ok ⟨none, 0⟩
      else .ok ⟨some a, sliceStop stop size⟩

/-- shape_utils.py:41-50 `int_to_start_stop` -/
def intToStartStop (i : Int) (size : Nat) : Res PyRange :=
  let n : Int := size
  if -n < i ∧ i < 0 then .ok ⟨some (i + n), i + n + 1⟩
  else if i ≥ n ∨ i < -n then .throw .invalidArgument
  else .ok ⟨some i, i + 1⟩

/-- shape_utils.py:169-170: `while len(normalized) + rest < ndim`; the list argument is
    `shape[len(normalized):]`. -/
def fillAxes (ndim rest : Nat) : List Nat → List PyRange → List PyRange
  | [], norm => norm
  | n :: ns, norm => if norm.length + rest < ndim then fillAxes ndim rest ns (norm ++ [⟨some 0, n⟩]) else norm

/-- shape_utils.py:156-174: the loop; `total` is `len(slices_lst)` -/
def normalizeLoop (shape : List Nat) (total : Nat) :
    List PyItem → List PyRange → Bool → List Nat → Res (List PyRange × List Nat)
  | [], norm, _, sq => .ok (norm, sq)
  | .slice a b s :: items, norm, found, sq =>
    match shape[norm.length]? with
    | none => .throw .outOfRange
    | some n => do
      let r ← sliceToStartStop a b s n
      normalizeLoop shape total items (norm ++ [r]) found sq
  | .int i :: items, norm, found, sq =>
    match shape[norm.length]? with
    | none => .throw .outOfRange
    | some n => do
      let r ← intToStartStop i n
      normalizeLoop shape total items (norm ++ [r]) found (sq ++ [norm.length])
  | .ellipsis :: items, norm, found, sq =>
    if found then .throw .invalidArgument
    else normalizeLoop shape total items
      (fillAxes shape.length (total - norm.length - 1) (shape.drop norm.length) norm) true sq

/-- shape_utils.py:127-174 `normalize_slices`, for a tuple (a single item is a tuple of length one) -/
def normalizeSlices (slices : List PyItem) (shape : List Nat) : Res (List PyRange × List Nat) :=
  let ndim := shape.length
  if (slices.filter (· ≠ .ellipsis)).length > ndim then .throw .typeError
  else
    let slices := if slices.length < ndim ∧ .ellipsis ∉ slices then slices ++ [.ellipsis] else slices
    normalizeLoop shape slices.length slices [] false []

/-- dataset.py:459-480 `index_to_roi` -/
def indexToRoi (index : List PyItem) (shape : List Nat) : Res (List (Option Int) × List Int × List Nat) := do
  let (normalized, squeeze) ← normalizeSlices index shape
  return (normalized.map (·.start),
    normalized.map (fun r => match r.start with | none => 0 | some a => r.stop - a), squeeze)

/-- `np.empty(shape)`: negative extents are a `ValueError` -/
def npShape : List Int → Res (List Nat)
  | [] => .ok []
  | n :: ns => do
    let ns ← npShape ns
    if n < 0 then .throw .invalidArgument else return n.toNat :: ns

/-- The conversion of a tuple to `std::vector<std::size_t>`: a `TypeError` for `None` and negative numbers.
    Numbers from 2^64 on do not occur, the shape bounds them. -/
def toSizes : List (Option Int) → Res (List Nat)
  | [] => .ok []
  | b :: bs => do
    let bs ← toSizes bs
    match b with
    | none => .throw .typeError
    | some b => if b < 0 then .throw .typeError else return b.toNat :: bs

/-- `out.squeeze(axes)`, the shape: the axes of these numbers are left out, counted from `d` on. -/
def squeezeFrom (axes : List Nat) : Nat → List Nat → List Nat
  | _, [] => []
  | d, n :: ns => if d ∈ axes then squeezeFrom axes (d + 1) ns else n :: squeezeFrom axes (d + 1) ns

/-- What `__getitem__` does, dataset.py:501-515: the shape of the array `out` that is allocated, the shape of
    the result (a scalar is a result without axes; the elements and their order are those of `out`), and the
    tasks that fill `out`.  `read` is the `readSubarray` of the dataset. -/
structure PyRead (α : Type) where
  out : List Nat
  result : List Nat
  tasks : List α

/-- dataset.py:483-515 `__getitem__` -/
def pyGetItem {α : Type} (read : View → List Nat → Res (List α)) (shape : List Nat) (index : List PyItem) :
    Res (PyRead α) := do
  let (roiBegin, roiShape, squeeze) ← indexToRoi index shape
  let out ← npShape roiShape
  let ts ← if 0 ∈ out then pure [] else do
    let b ← toSizes roiBegin
    read (makeView out) b
  return ⟨out, squeezeFrom squeeze 0 out, ts⟩

/-- An array of numpy in C order -/
structure NpArray (α : Type) where
  shape : List Nat
  data : List α

/-- shape_utils.py:72-80 of `rectify_shape`: the loop that strips singletons from the front, and from the
    back where the front is none.  (The last one is kept.) -/
def stripFront : List Nat → List Nat
  | [] => []
  | [n] => [n]
  | n :: m :: s => if n = 1 then stripFront (m :: s) else n :: m :: s

/-- shape_utils.py:72-80, continued: once the front is not a singleton it stays, so that only the back is
    stripped. -/
def stripOnes (s : List Nat) : List Nat := (stripFront (stripFront s).reverse).reverse

/-- shape_utils.py:53-58 `sliding_window` -/
def slidingWindow (arr : List Nat) (w : Nat) : List (List Nat) :=
  if w > arr.length then []
  else (List.range (arr.length - w + 1)).map fun i => (arr.drop i).take w

/-- shape_utils.py:90-102 of `rectify_shape`: the loop over the windows; `false` if it is left by `break`.
    Windows are empty only if `important` is, and then they are equal. -/
def windowLoop (important : List Nat) : List (List Nat) → Bool → Bool
  | [], _ => true
  | w :: ws, leading =>
    if w = important then (if leading then windowLoop important ws false else false)
    else if leading then (if w.head? ≠ some 1 then false else windowLoop important ws leading)
    else if w.getLast? ≠ some 1 then false else windowLoop important ws leading

/-- shape_utils.py:61-103 `rectify_shape`; `reshape` fails if the number of elements is not the same. -/
def rectifyShape {α : Type} (arr : NpArray α) (required : List Nat) : Res (NpArray α) :=
  if arr.shape = required then .ok arr
  else
    let important := stripOnes arr.shape
    if important.length > required.length then .throw .invalidArgument
    else if windowLoop important (slidingWindow required important.length) true then
      if prod arr.shape = prod required then .ok ⟨required, arr.data⟩ else .throw .invalidArgument
    else .throw .invalidArgument

/-- dataset.py:518-562 `__setitem__` with a number; the conversion of the number is not modelled. -/
def pySetScalar {α β : Type} (write : List Nat → List Nat → β → Res (List α)) (shape : List Nat)
    (index : List PyItem) (v : β) : Res (List α) := do
  let (roiBegin, roiShape, _) ← indexToRoi index shape
  if 0 ∈ roiShape then return []
  else do
    let b ← toSizes roiBegin
    let s ← toSizes (roiShape.map some)
    write b s v

/-- dataset.py:518-562 `__setitem__` with an array (of the type of the dataset, in C order: `np.asarray` is
    not modelled). -/
def pySetArray {α β : Type} (write : List β → View → List Nat → Res (List α)) (shape : List Nat)
    (index : List PyItem) (item : NpArray β) : Res (List α) := do
  let (roiBegin, roiShape, _) ← indexToRoi index shape
  if 0 ∈ roiShape then return []
  else do
    -- the comparison with a shape that has negative extents fails; there are none
    let s ← npShape roiShape
    let arr ← rectifyShape item s
    let b ← toSizes roiBegin
    write arr.data (makeView arr.shape) b

end Z5
