import Verif.Model.Dataset
import Verif.Model.View

/-!
# Model of `multiarray/array_access.hxx` and `multiarray/broadcast.hxx`

A call `readSubarray` / `writeSubarray` / `writeScalar` checks the request and then runs one task per
chunk (per shard for sharded datasets) on a thread pool.  A task is a store program.  Tasks of one
thread share a scratch buffer; the model gives every task a scratch buffer with *arbitrary* content
and length.  Output memory: a read task returns the list of its writes (position, value) into the
output buffer.

Not modelled: the type check `checkRequestType`, the `assert` on the dimension, the iterator arguments
(offset vectors have the length of the request shape).
-/

namespace Z5

open Prog

variable {E : Elem}

/-- array_access.hxx:95-153: the body of `readSubarrayPlain` for chunk `c`.  The result is the list
    of writes into the output buffer.  `copyView` reads the scratch buffer through a view of shape
    `chunkShape`. -/
def Dataset.readTask (ds : Dataset E) (out : View) (offset shape c : List Nat)
    (scratch : List E.T) : Prog (List (Nat × E.T)) := do
  let o ← .ret (ds.chunking.getCoordinatesInRoi c offset shape)
  let outView := subview out o.beginInRoi o.shapeInRoi
  if !(← ds.chunkExists c) then
    return (fillPlan outView).map fun i => (i, ds.fill)
  else do
    let chunkShape ← .ret (ds.getChunkShape c)
    let chunkSize := accumulateMul chunkShape
    let data ← ds.readRawChunk c
    let (isVarlen, storeSize, headerLen) ←
      if !ds.isZarr then .ret (readN5Header data) else .ret (.ok (false, ds.chunkSize, 0))
    if isVarlen then Prog.throw .runtimeError
    else do
      let (chunkSize, chunkShape) :=
        if storeSize ≠ chunkSize then (ds.chunkSize, ds.chunkShape) else (chunkSize, chunkShape)
      let buffer := if chunkSize ≠ scratch.length then resize E scratch chunkSize else scratch
      let buffer ← .ret (decompress E ds.codec (data.drop headerLen) buffer chunkSize)
      let buffer ← if !ds.isZarr && decide (E.size > 1) then .ret (revPrefix E chunkSize buffer)
        else .ret (.ok buffer)
      let chunkView : View := { base := 0, shape := chunkShape, strides := cOrderStrides chunkShape }
      .ret (copyPokes buffer (copyPlan (subview chunkView o.beginInBlock o.shapeInRoi) outView))

/-- What `fillRequest` does to the chunk buffer, given the destination view, `offsetInRequest` and
    `requestShape`: array_access.hxx:241-247 (copy from the input view) or broadcast.hxx:37-41 (fill
    a value). -/
abbrev FillRequest (E : Elem) := List E.T → View → List Nat → List Nat → Res (List E.T)

/-- array_access.hxx:241-247 `makeCopyFillRequest`. -/
def copyRequest (inBuf : List E.T) (inView : View) : FillRequest E := fun buf dest oir rs =>
  copyView inBuf (subview inView oir rs) buf dest

/-- broadcast.hxx:37-41. -/
def scalarRequest (val : E.T) : FillRequest E := fun buf dest _ _ => fillView buf dest val

/-- array_access.hxx:194-235 `prepareChunkWriteBuffer`: the filled chunk buffer.  `readExisting`
    receives the buffer and returns its new content, or `none` if there is no existing chunk. -/
def Dataset.prepareBuffer (ds : Dataset E) (fillRequest : FillRequest E) (offset shape c : List Nat)
    (scratch : List E.T) (readExisting : List E.T → Prog (Option (List E.T))) : Prog (List E.T) := do
  let o ← .ret (ds.chunking.getCoordinatesInRoi c offset shape)
  let chunkShape ← .ret (ds.getChunkShape c)
  let chunkSize := accumulateMul chunkShape
  let (complete, chunkShape, chunkSize) :=
    if chunkSize ≠ ds.chunkSize ∧ ds.isZarr then (false, ds.chunkShape, ds.chunkSize)
    else (o.complete, chunkShape, chunkSize)
  let buffer := if chunkSize ≠ scratch.length then resize E scratch chunkSize else scratch
  if complete then
    .ret (fillRequest buffer (makeView chunkShape) o.beginInRoi o.shapeInRoi)
  else do
    let buffer ← (do
      match ← readExisting buffer with
      | none => return List.replicate buffer.length ds.fill
      | some buf => return buf)
    .ret (fillRequest buffer (subview (makeView chunkShape) o.beginInBlock o.shapeInRoi)
      o.beginInRoi o.shapeInRoi)

/-- array_access.hxx:276-285: `readExisting` of the plain write path. -/
def Dataset.readExisting (ds : Dataset E) (c : List Nat) (buf : List E.T) :
    Prog (Option (List E.T)) := do
  if !(← ds.chunkExists c) then return none
  else do
    let (isVarlen, buf) ← ds.readChunk c buf
    if isVarlen then Prog.throw .runtimeError else return some buf

/-- array_access.hxx:268-287: the body of `writePlainGeneric` for chunk `c`. -/
def Dataset.writeTask (ds : Dataset E) (fillRequest : FillRequest E) (offset shape c : List Nat)
    (scratch : List E.T) : Prog Unit := do
  let buffer ← ds.prepareBuffer fillRequest offset shape c scratch (ds.readExisting c)
  ds.writeChunk c buffer

/-- array_access.hxx:163-173, 503-513, broadcast.hxx:26-34: the checks and the chunks of a request. -/
def Dataset.requestChunks (ds : Dataset E) (offset shape : List Nat) : Res (List (List Nat)) := do
  ds.checkRequestShape offset shape
  ds.chunking.getBlocksOverlappingRoi offset shape

/-- array_access.hxx:158-181 `readSubarray` of a plain dataset: the tasks, in the order of the chunk
    list; `scratch i` is what task `i` finds in its buffer. -/
def Dataset.readSubarray (ds : Dataset E) (out : View) (offset : List Nat)
    (scratch : Nat → List E.T) : Res (List (Prog (List (Nat × E.T)))) := do
  let cs ← ds.requestChunks offset out.shape
  return cs.mapIdx fun i c => ds.readTask out offset out.shape c (scratch i)

/-- array_access.hxx:254-288 `writePlainGeneric`, 497-521 `writeSubarray`, broadcast.hxx:19-50
    `writeScalar` of a plain dataset: the tasks. -/
def Dataset.writeRegion (ds : Dataset E) (fillRequest : FillRequest E) (offset shape : List Nat)
    (scratch : Nat → List E.T) : Res (List (Prog Unit)) := do
  let cs ← ds.requestChunks offset shape
  return cs.mapIdx fun i c => ds.writeTask fillRequest offset shape c (scratch i)

/-- array_access.hxx:497-521 `writeSubarray` (plain). -/
def Dataset.writeSubarray (ds : Dataset E) (inBuf : List E.T) (inView : View) (offset : List Nat)
    (scratch : Nat → List E.T) : Res (List (Prog Unit)) :=
  ds.writeRegion (copyRequest inBuf inView) offset inView.shape scratch

/-- broadcast.hxx:19-50 `writeScalar` (plain). -/
def Dataset.writeScalar (ds : Dataset E) (offset shape : List Nat) (val : E.T)
    (scratch : Nat → List E.T) : Res (List (Prog Unit)) :=
  ds.writeRegion (scalarRequest val) offset shape scratch

/-! ### Sharded datasets -/

/-- array_access.hxx:315-322 `groupChunksByShard`: insertion into the map.  Simplification: the groups
    are kept in order of first insertion instead of `std::map` order; the order of the tasks is
    irrelevant because every interleaving is considered. -/
def insertGroup (s c : List Nat) : List (List Nat × List (List Nat)) → List (List Nat × List (List Nat))
  | [] => [(s, [c])]
  | (s', cs) :: gs => if s' = s then (s', cs ++ [c]) :: gs else (s', cs) :: insertGroup s c gs

/-- array_access.hxx:319-321: the loop. -/
def groupChunks (cps : List Nat) : List (List Nat) → List (List Nat × List (List Nat)) →
    Res (List (List Nat × List (List Nat)))
  | [], gs => .ok gs
  | c :: cs, gs => do
    let s ← shardId c cps
    groupChunks cps cs (insertGroup s c gs)

/-- array_access.hxx:373-394: the loop over the inner chunks of a shard. -/
def ShardedDataset.updateSlots (ds : ShardedDataset E) (fillRequest : FillRequest E)
    (offset shape : List Nat) : List (List Nat) → List E.T → List Bytes → Prog (List Bytes)
  | [], _, blobs => return blobs
  | c :: cs, scratch, blobs => do
    let slot ← .ret (shardSlot c ds.cps)
    let buffer ← ds.prepareBuffer fillRequest offset shape c scratch fun buf =>
      match blobs[slot]? with
      | none => .ret .ub
      | some [] => return none
      | some blob => do
        let buf ← .ret (decompress E ds.codec blob buf buf.length)
        return some buf
    let blob ← .ret (ds.makeChunkBlob c buffer)
    if blobs.length ≤ slot then .ret .ub
    else ds.updateSlots fillRequest offset shape cs buffer (blobs.set slot (blob.getD []))

/-- array_access.hxx:366-396 `processShard` of the write path. -/
def ShardedDataset.writeShardTask (ds : ShardedDataset E) (fillRequest : FillRequest E)
    (offset shape : List Nat) (s : List Nat) (cs : List (List Nat)) (scratch : List E.T) :
    Prog Unit := do
  let blobs ← ds.readShardBlobs s
  let blobs ← ds.updateSlots fillRequest offset shape cs scratch blobs
  ds.writeShardBlobs s blobs

/-- array_access.hxx:328-404 `writeShardedGeneric` behind the request checks: the tasks. -/
def ShardedDataset.writeRegion (ds : ShardedDataset E) (fillRequest : FillRequest E)
    (offset shape : List Nat) (scratch : Nat → List E.T) : Res (List (Prog Unit)) := do
  let cs ← ds.requestChunks offset shape
  if !ds.canWrite then .throw .invalidArgument
  else do
    let cps ← chunksPerShard ds.shardShape ds.chunkShape
    let gs ← groupChunks cps cs []
    return gs.mapIdx fun i g => ds.writeShardTask fillRequest offset shape g.1 g.2 (scratch i)

/-- array_access.hxx:465-485: the loop over the inner chunks of a shard in the read path; the scratch
    buffer is reused from chunk to chunk. -/
def ShardedDataset.readSlots (ds : ShardedDataset E) (out : View) (offset shape : List Nat)
    (raw : Option (Bytes × List (Nat × Nat))) : List (List Nat) → List E.T → Res (List (Nat × E.T))
  | [], _ => .ok []
  | c :: cs, scratch => do
    let slot ← shardSlot c ds.cps
    let o ← ds.chunking.getCoordinatesInRoi c offset shape
    let outView := subview out o.beginInRoi o.shapeInRoi
    match raw with
    | none => do
      let rest ← ds.readSlots out offset shape raw cs scratch
      return (fillPlan outView).map (fun i => (i, ds.fill)) ++ rest
    | some (b, tab) =>
      match tab[slot]? with
      | none => .ub
      | some (off, n) =>
        if n = 0 then do
          let rest ← ds.readSlots out offset shape raw cs scratch
          return (fillPlan outView).map (fun i => (i, ds.fill)) ++ rest
        else do
          let buffer := if scratch.length ≠ ds.chunkSize then resize E scratch ds.chunkSize else scratch
          let blob ← slice b off n
          let buffer ← decompress E ds.codec blob buffer ds.chunkSize
          let chunkView : View :=
            { base := 0, shape := ds.chunkShape, strides := cOrderStrides ds.chunkShape }
          let ps ← copyPokes buffer (copyPlan (subview chunkView o.beginInBlock o.shapeInRoi) outView)
          let rest ← ds.readSlots out offset shape raw cs buffer
          return ps ++ rest

/-- array_access.hxx:457-486 `processShard` of the read path. -/
def ShardedDataset.readShardTask (ds : ShardedDataset E) (out : View) (offset shape : List Nat)
    (s : List Nat) (cs : List (List Nat)) (scratch : List E.T) : Prog (List (Nat × E.T)) := do
  let raw ← ds.readShardRaw s
  .ret (ds.readSlots out offset shape raw cs scratch)

/-- array_access.hxx:420-493 `readSubarraySharded` behind the request checks: the tasks. -/
def ShardedDataset.readSubarray (ds : ShardedDataset E) (out : View) (offset : List Nat)
    (scratch : Nat → List E.T) : Res (List (Prog (List (Nat × E.T)))) := do
  let cs ← ds.requestChunks offset out.shape
  let cps ← chunksPerShard ds.shardShape ds.chunkShape
  let gs ← groupChunks cps cs []
  return gs.mapIdx fun i g => ds.readShardTask out offset out.shape g.1 g.2 (scratch i)

end Z5
