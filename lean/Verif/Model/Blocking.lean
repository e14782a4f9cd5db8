import Verif.Model.Util
import Verif.Lib.Nd

/-!
# Model of `util/blocking.hxx` (class `Blocking`)

All arithmetic is `std::size_t` arithmetic (modulo 2^64), with the `int` truncation of
`getCoordinatesInRoi` modelled explicitly.  Vectors that are too short are read out of bounds,
which is `Res.ub`.
-/

namespace Z5

/-- util/blocking.hxx:244-248, the members of `Blocking`. -/
structure Blocking where
  shape : List Nat
  blockShape : List Nat
  blocksPerDim : List Nat
  blockStrides : List Nat
  numberOfBlocks : Nat
  deriving DecidableEq, Repr

/-- util/blocking.hxx:230: `shape / block + (shape % block == 0 ? 0 : 1)`. -/
def blocksInAxis (s b : Nat) : Nat := s / b + (if s % b = 0 then 0 else 1)

/-- util/blocking.hxx:229-231 -/
def blocksPerDimension (shape blockShape : List Nat) : List Nat :=
  List.zipWith blocksInAxis shape blockShape

/-- util/blocking.hxx:232-234: `std::accumulate(..., std::multiplies<std::size_t>())`. -/
def accumulateMul (l : List Nat) : Nat := l.foldl wmul 1

/-- util/blocking.hxx:237-241: strides from the last axis to the first. -/
def blockStridesOf : List Nat → List Nat
  | [] => []
  | [_] => [1]
  | _ :: m :: s =>
    match blockStridesOf (m :: s) with
    | [] => []
    | t :: ts => wmul t m :: t :: ts

/-- util/blocking.hxx:220-242 `init` (called by the constructor 13-16). -/
def Blocking.make (shape blockShape : List Nat) : Res Blocking :=
  if shape = [] then .throw .invalidArgument
  else if blockShape.length < shape.length then .ub          -- blockShape_[d] out of bounds
  else if 0 ∈ blockShape.take shape.length then .ub          -- division by zero
  else
    let bpd := blocksPerDimension shape blockShape
    .ok { shape := shape, blockShape := blockShape, blocksPerDim := bpd,
          blockStrides := blockStridesOf bpd, numberOfBlocks := accumulateMul bpd }

/-- util/blocking.hxx:38-41: the digit loop of `blockIdToBlockCoordinate`. -/
def idToCoordLoop : List Nat → Nat → Res (List Nat)
  | [], _ => .ok []
  | st :: sts, index =>
    if st = 0 then .ub                                        -- division by zero
    else do
      let c := index / st
      let rest ← idToCoordLoop sts (wsub index (wmul c st))
      return c :: rest

/-- util/blocking.hxx:34-42 -/
def Blocking.blockIdToBlockCoordinate (B : Blocking) (blockId : Nat) : Res (List Nat) :=
  idToCoordLoop B.blockStrides blockId

/-- util/blocking.hxx:46-48: the accumulation loop of `blockCoordinatesToBlockId`. -/
def coordToIdLoop : List Nat → List Nat → Nat → Res Nat
  | [], _, acc => .ok acc
  | _ :: _, [], _ => .ub                                      -- blockCoordinate[d] out of bounds
  | st :: sts, c :: cs, acc => coordToIdLoop sts cs (wadd acc (wmul st c))

/-- util/blocking.hxx:44-50 -/
def Blocking.blockCoordinatesToBlockId (B : Blocking) (coord : List Nat) : Res Nat :=
  coordToIdLoop B.blockStrides coord 0

/-- util/blocking.hxx:55-61 (`blockShape_` has no zero once constructed). -/
def Blocking.coordinateToBlockCoordinate (B : Blocking) (coordinate : List Nat) : Res (List Nat) :=
  if coordinate.length < B.shape.length then .ub
  else .ok (List.zipWith (· / ·) (coordinate.take B.shape.length) B.blockShape)

/-- util/blocking.hxx:80: `blockBegin[d] = blockCoordinate[d] * blockShape_[d]`. -/
def beginLoop : List Nat → List Nat → List Nat
  | b :: bs, c :: cs => wmul c b :: beginLoop bs cs
  | _, _ => []

/-- util/blocking.hxx:81 / 100: `min((blockCoordinate[d] + 1) * blockShape_[d], shape_[d])`. -/
def endLoop : List Nat → List Nat → List Nat → List Nat
  | s :: ss, b :: bs, c :: cs => min (wmul (wadd c 1) b) s :: endLoop ss bs cs
  | _, _, _ => []

/-- util/blocking.hxx:74-83 `getBlockBeginAndShape` -/
def Blocking.getBlockBeginAndShape (B : Blocking) (coord : List Nat) :
    Res (List Nat × List Nat) :=
  if coord.length < B.shape.length then .ub
  else
    let begins := beginLoop (B.blockShape.take B.shape.length) coord
    .ok (begins, List.zipWith wsub (endLoop B.shape B.blockShape coord) begins)

/-- util/blocking.hxx:93-102 `getBlockBeginAndEnd` -/
def Blocking.getBlockBeginAndEnd (B : Blocking) (coord : List Nat) : Res (List Nat × List Nat) :=
  if coord.length < B.shape.length then .ub
  else
    .ok (beginLoop (B.blockShape.take B.shape.length) coord, endLoop B.shape B.blockShape coord)

/-- util/blocking.hxx:66-72 `getBlockBeginAndShape(blockId, ...)` -/
def Blocking.getBlockBeginAndShapeOfId (B : Blocking) (blockId : Nat) :
    Res (List Nat × List Nat) := do
  let c ← B.blockIdToBlockCoordinate blockId
  B.getBlockBeginAndShape c

/-- util/blocking.hxx:124: the last block touched along one axis. -/
def maxBlockId (roiBegin roiShape b : Nat) : Nat :=
  let e := wadd roiBegin roiShape
  if e % b = 0 then wsub (e / b) 1 else e / b

/-- util/blocking.hxx:118-125: `maxBlockIds`. -/
def maxLoop : List Nat → List Nat → List Nat → List Nat
  | rb :: rbs, rs :: rss, b :: bs => maxBlockId rb rs b :: maxLoop rbs rss bs
  | _, _, _ => []

/-- util/blocking.hxx:109-128 `getBlocksOverlappingRoi`. -/
def Blocking.getBlocksOverlappingRoi (B : Blocking) (roiBegin roiShape : List Nat) :
    Res (List (List Nat)) :=
  if roiShape.length < roiBegin.length ∨ B.blockShape.length < roiBegin.length then .ub
  else
    makeRegularGrid (List.zipWith (· / ·) roiBegin B.blockShape)
      (maxLoop roiBegin roiShape B.blockShape)

/-- util/blocking.hxx:131-136 `getBlocksInRoi`. -/
def Blocking.getBlocksInRoi (_B : Blocking) (_roiBegin _roiShape : List Nat) :
    Res (List (List Nat)) := .throw .logicError

/-- What `getCoordinatesInRoi` computes for one axis. -/
structure AxisOverlap where
  beginInRoi : Nat
  shapeInRoi : Nat
  beginInBlock : Nat
  complete : Bool
  deriving DecidableEq, Repr

/-- util/blocking.hxx:159-199, one iteration of the loop.  `offDiff` and `endDiff` are `int`;
    negating `INT_MIN` (line 175) is signed overflow. -/
def axisOverlap (blockBegin blockShape roiBegin roiShape : Nat) : Res AxisOverlap :=
  let blockEnd := wadd blockBegin blockShape
  let roiEnd := wadd roiBegin roiShape
  let offDiff := toInt32 (wsub blockBegin roiBegin)
  let endDiff := toInt32 (wsub roiEnd blockEnd)
  if offDiff < 0 then
    if offDiff = -2 ^ 31 then .ub
    else .ok { beginInRoi := 0, beginInBlock := intToSize (-offDiff), complete := false,
               shapeInRoi := if blockEnd ≤ roiEnd then wsub blockEnd roiBegin
                             else wsub roiEnd roiBegin }
  else if endDiff < 0 then
    .ok { beginInRoi := wsub blockBegin roiBegin, beginInBlock := 0, complete := false,
          shapeInRoi := wsub roiEnd blockBegin }
  else
    .ok { beginInRoi := wsub blockBegin roiBegin, beginInBlock := 0, complete := true,
          shapeInRoi := blockShape }

/-- util/blocking.hxx:159-199, the loop over the axes. -/
def overlapLoop : List Nat → List Nat → List Nat → List Nat → Res (List AxisOverlap)
  | bb :: bbs, bsh :: bshs, rb :: rbs, rs :: rss => do
    let a ← axisOverlap bb bsh rb rs
    let rest ← overlapLoop bbs bshs rbs rss
    return a :: rest
  | _, _, [], _ => .ok []
  | _, _, _ :: _, _ => .ub                                    -- some vector is too short

/-- Result of `getCoordinatesInRoi` (three output vectors and the returned flag). -/
structure RoiOverlap where
  beginInRoi : List Nat
  shapeInRoi : List Nat
  beginInBlock : List Nat
  complete : Bool
  deriving DecidableEq, Repr

/-- util/blocking.hxx:141-201 `getCoordinatesInRoi`. -/
def Blocking.getCoordinatesInRoi (B : Blocking) (coord roiBegin roiShape : List Nat) :
    Res RoiOverlap := do
  let (bb, bsh) ← B.getBlockBeginAndShape coord
  let l ← overlapLoop bb bsh roiBegin roiShape
  return { beginInRoi := l.map (·.beginInRoi), shapeInRoi := l.map (·.shapeInRoi),
           beginInBlock := l.map (·.beginInBlock), complete := l.all (·.complete) }

/-- util/blocking.hxx:211-215: the loop of `checkBlockCoordinate`. -/
def checkLoop : List Nat → List Nat → Bool
  | c :: cs, n :: ns => if c ≥ n then false else checkLoop cs ns
  | _, _ => true

/-- util/blocking.hxx:204-217 `checkBlockCoordinate`. -/
def Blocking.checkBlockCoordinate (B : Blocking) (coord : List Nat) : Bool :=
  if coord.length ≠ B.shape.length then false else checkLoop coord B.blocksPerDim

end Z5
