import Verif.Model.Dataset
import Verif.Model.Pool

/-!
# Model of `util/for_each.hxx`

Each function gives the calls of the loop body, in the order of their numbers, for `parallel_foreach`
(`Model/Pool.lean`) to execute.  `f` is the body; what it does with its thread id is part of the program.
-/

namespace Z5

variable {E : Elem} {α : Type}

/-- util/for_each.hxx:13-22 `parallel_for_each_chunk`. -/
def Dataset.eachChunk (ds : Dataset E) (f : List Nat → Prog α) : List (Prog α) :=
  (List.range ds.chunking.numberOfBlocks).map fun id => do
    let c ← .ret (ds.chunking.blockIdToBlockCoordinate id)
    f c

/-- util/for_each.hxx:31-34, 70-73: `roiShape[d] -= roiBegin[d]`; `roiBegin[d]` out of bounds is undefined. -/
def roiShape (roiBegin roiEnd : List Nat) : Res (List Nat) :=
  if roiBegin.length < roiEnd.length then .ub
  else .ok (List.zipWith wsub roiEnd roiBegin)

/-- util/for_each.hxx:25-47 `parallel_for_each_chunk_in_roi`. -/
def Dataset.eachChunkInRoi (ds : Dataset E) (roiBegin roiEnd : List Nat) (f : List Nat → Prog α) :
    Res (List (Prog α)) := do
  let shape ← roiShape roiBegin roiEnd
  let chunks ← ds.chunking.getBlocksOverlappingRoi roiBegin shape
  return chunks.map f

/-- util/for_each.hxx:50-62 `parallel_for_each_block`. -/
def Dataset.eachBlock (ds : Dataset E) (blockShape : List Nat) (f : List Nat → List Nat → Prog α) :
    Res (List (Prog α)) := do
  let B ← Blocking.make ds.shape blockShape
  return (List.range B.numberOfBlocks).map fun id => do
    let b ← .ret (B.getBlockBeginAndShapeOfId id)
    f b.1 b.2

/-- util/for_each.hxx:65-87 `parallel_for_each_block_in_roi`. -/
def Dataset.eachBlockInRoi (ds : Dataset E) (blockShape roiBegin roiEnd : List Nat)
    (f : List Nat → List Nat → Prog α) : Res (List (Prog α)) := do
  let shape ← roiShape roiBegin roiEnd
  let B ← Blocking.make ds.shape blockShape
  let blocks ← B.getBlocksOverlappingRoi roiBegin shape
  return blocks.map fun c => do
    let b ← .ret (B.getBlockBeginAndShape c)
    f b.1 b.2

end Z5
