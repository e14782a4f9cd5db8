import Verif.Basic
import Verif.Lib.Nd

/-!
# Model of `multiarray/array_view.hxx` and `multiarray/array_util.hxx`

A view is a start offset into a buffer together with extents and element strides.  The buffer itself
is a list; accessing it outside its length is `Res.ub`.  Flat offsets are natural numbers (offsets
into an allocated buffer do not wrap); strides are non-negative, as in the code (`ShapeType`).
-/

namespace Z5

/-- array_view.hxx:24-38 `ArrayView` / 42-58 `ConstArrayView`: `base` is the distance of `data`
    from the start of the buffer it points into. -/
structure View where
  base : Nat
  shape : List Nat
  strides : List Nat
  deriving DecidableEq, Repr

/-- array_view.hxx:62-69 `cOrderStrides`: from the last axis to the first. -/
def cOrderStrides : List Nat → List Nat
  | [] => []
  | [_] => [1]
  | _ :: m :: s =>
    match cOrderStrides (m :: s) with
    | [] => []
    | t :: ts => t * m :: t :: ts

/-- array_view.hxx:74-81 `makeView` on the start of a buffer. -/
def makeView (shape : List Nat) : View := { base := 0, shape := shape, strides := cOrderStrides shape }

/-- array_view.hxx:87-106 `subview`.  All call sites pass an offset with as many entries as the view
    has axes; `dot` stops at the shorter list. -/
def subview (v : View) (offset shape : List Nat) : View :=
  { base := v.base + dot offset v.strides, shape := shape, strides := v.strides }

/-- array_util.hxx:61-66 (and 112-117): one increment of the odometer over the outer axes, from the
    last to the first; the flag says whether the loop was left by `break`. -/
def odoIncr : List Nat → List Nat → List Nat × Bool
  | s :: ss, i :: is =>
    let r := odoIncr ss is
    if r.2 then (i :: r.1, true)
    else if i + 1 < s then ((i + 1) :: r.1, true)
    else (0 :: r.1, false)
  | _, _ => ([], false)

/-- array_util.hxx:42-67 (and 97-118): the odometer positions of the `nRuns` runs. -/
def runPositions (outer : List Nat) : Nat → List Nat → List (List Nat)
  | 0, _ => []
  | n + 1, idx => idx :: runPositions outer n (odoIncr outer idx).1

/-- array_util.hxx:37-40: number of runs. -/
def nRuns (outer : List Nat) : Nat := outer.foldl (· * ·) 1

/-- array_util.hxx:22-68 `copyView`, as the list of (source, destination) buffer positions in the
    order in which elements are copied.  The contiguous case (`std::copy`) and the strided case
    are kept separate as in the code. -/
def copyPlan (src dst : View) : List (Nat × Nat) :=
  if dst.shape = [] then [(src.base, dst.base)]
  else
    let lastDim := dst.shape.getLastD 0
    let srcLast := src.strides.getLastD 0
    let dstLast := dst.strides.getLastD 0
    let outer := dst.shape.dropLast
    (runPositions outer (nRuns outer) (List.replicate outer.length 0)).flatMap fun idx =>
      let srcOff := dot idx src.strides.dropLast
      let dstOff := dot idx dst.strides.dropLast
      if srcLast = 1 ∧ dstLast = 1 then
        (List.range lastDim).map fun k => (src.base + srcOff + k, dst.base + dstOff + k)
      else
        (List.range lastDim).map fun k =>
          (src.base + (srcOff + k * srcLast), dst.base + (dstOff + k * dstLast))

/-- array_util.hxx:80-119 `fillView`, as the list of buffer positions in the order of the writes. -/
def fillPlan (dst : View) : List Nat :=
  if dst.shape = [] then [dst.base]
  else
    let lastDim := dst.shape.getLastD 0
    let dstLast := dst.strides.getLastD 0
    let outer := dst.shape.dropLast
    (runPositions outer (nRuns outer) (List.replicate outer.length 0)).flatMap fun idx =>
      let dstOff := dot idx dst.strides.dropLast
      if dstLast = 1 then (List.range lastDim).map fun k => dst.base + dstOff + k
      else (List.range lastDim).map fun k => dst.base + (dstOff + k * dstLast)

/-- element read -/
def readAt {α : Type} (buf : List α) (i : Nat) : Res α :=
  match buf[i]? with
  | some a => .ok a
  | none => .ub

/-- element write -/
def writeAt {α : Type} (buf : List α) (i : Nat) (v : α) : Res (List α) :=
  if i < buf.length then .ok (buf.set i v) else .ub

/-- a sequence of element writes (position, value) -/
def applyPokes {α : Type} : List (Nat × α) → List α → Res (List α)
  | [], buf => .ok buf
  | (i, v) :: ps, buf => do
    let buf ← writeAt buf i v
    applyPokes ps buf

/-- the element reads of a copy, in order: (destination position, value read from the source) -/
def copyPokes {α : Type} (src : List α) : List (Nat × Nat) → Res (List (Nat × α))
  | [] => .ok []
  | (i, j) :: ps => do
    let v ← readAt src i
    let rest ← copyPokes src ps
    return (j, v) :: rest

/-- array_util.hxx:22-68 `copyView` between two different buffers: since source and destination do
    not overlap, all reads may be done before the writes. -/
def copyView {α : Type} (src : List α) (sv : View) (dst : List α) (dv : View) : Res (List α) := do
  let ps ← copyPokes src (copyPlan sv dv)
  applyPokes ps dst

/-- array_util.hxx:80-119 `fillView`. -/
def fillView {α : Type} (dst : List α) (dv : View) (val : α) : Res (List α) :=
  applyPokes ((fillPlan dv).map fun i => (i, val)) dst

end Z5
