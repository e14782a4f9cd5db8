import Verif.Model.Prog
import Verif.Model.Format
import Verif.Model.Sharding

/-!
# Model of the chunk-level API: `generic/dataset.hxx` and `generic/sharded_dataset.hxx`
-/

namespace Z5

/-- dataset.hxx:216-226 (members), 31-38 (constructor), with the parts of the typed mixin (173-217)
    and of the handle that the operations use.  `key.isZarr` is the format flag (generic/dataset.hxx:35
    makes the handle agree with it). -/
structure Dataset (E : Elem) where
  shape : List Nat
  chunkShape : List Nat
  chunkSize : Nat
  chunking : Blocking
  key : KeyCfg
  codec : Codec
  fill : E.T
  canWrite : Bool
  /-- the template parameter `STORE` -/
  backend : Backend

variable {E : Elem}

/-- dataset.hxx:31-38, the constructor. -/
def Dataset.make (shape chunkShape : List Nat) (key : KeyCfg) (codec : Codec) (fill : E.T)
    (canWrite : Bool) (backend : Backend) : Res (Dataset E) := do
  let B ← Blocking.make shape chunkShape
  return { shape := shape, chunkShape := chunkShape, chunkSize := accumulateMul chunkShape,
           chunking := B, key := key, codec := codec, fill := fill, canWrite := canWrite,
           backend := backend }

def Dataset.isZarr (ds : Dataset E) : Bool := ds.key.isZarr

/-- The chunk handle constructor, handle.hxx:143-150: bounded shape; `ub` for too short indices. -/
def Dataset.handle (ds : Dataset E) (c : List Nat) : Res ChunkShapes := do
  let b ← computeBoundedShape c ds.chunkShape ds.shape
  return { isZarr := ds.isZarr, defaultShape := ds.chunkShape, boundedShape := b }

/-- filesystem/handle.hxx:273: the file of a chunk, relative to the dataset directory; s3/handle.hxx:629: the key of a
    chunk, after the name of the dataset and a slash. -/
def Dataset.chunkKey (ds : Dataset E) (c : List Nat) : Key := getChunkKey ds.key c

/-- generic/dataset.hxx:226-237 `checkChunk`. -/
def Dataset.checkChunk (ds : Dataset E) (c : List Nat) (isVarlen : Bool) : Res Unit :=
  if !ds.chunking.checkBlockCoordinate c then .throw .runtimeError
  else if isVarlen && ds.isZarr then .throw .runtimeError
  else .ok ()

/-- dataset.hxx:51-61: the loop of `checkRequestShape`. -/
def requestLoop : List Nat → List Nat → List Nat → Res Unit
  | s :: ss, o :: os, n :: ns =>
    if wadd o n > s then .throw .runtimeError
    else if n = 0 then .throw .runtimeError
    else requestLoop ss os ns
  | _, _, _ => .ok ()

/-- dataset.hxx:47-62 `checkRequestShape`. -/
def Dataset.checkRequestShape (ds : Dataset E) (offset shape : List Nat) : Res Unit :=
  if offset.length ≠ ds.shape.length ∨ shape.length ≠ ds.shape.length then .throw .runtimeError
  else requestLoop ds.shape offset shape

open Prog

/-- generic/dataset.hxx:42-67 `writeChunk`. -/
def Dataset.writeChunk (ds : Dataset E) (c : List Nat) (dataIn : List E.T) (isVarlen : Bool := false)
    (varSize : Nat := 0) : Prog Unit :=
  if !ds.canWrite then Prog.throw .invalidArgument
  else do
    let h ← .ret (ds.handle c)
    .ret (ds.checkChunk c isVarlen)
    match ← .ret (dataToBuffer E ds.codec h dataIn ds.fill isVarlen varSize) with
    | none => storeErase ds.backend (ds.chunkKey c)
    | some b => storeWrite ds.backend (ds.chunkKey c) b

/-- generic/dataset.hxx:72-90 `readChunk`: the varlen flag and the new content of the caller's
    buffer. -/
def Dataset.readChunk (ds : Dataset E) (c : List Nat) (dataOut : List E.T) :
    Prog (Bool × List E.T) := do
  let h ← .ret (ds.handle c)
  .ret (ds.checkChunk c false)
  match ← storeRead ds.backend (ds.chunkKey c) with
  | none => Prog.throw .runtimeError
  | some b => .ret (bufferToData E ds.codec h b dataOut)

/-- generic/dataset.hxx:92-99 `readRawChunk`. -/
def Dataset.readRawChunk (ds : Dataset E) (c : List Nat) : Prog Bytes := do
  let _ ← .ret (ds.handle c)
  match ← storeRead ds.backend (ds.chunkKey c) with
  | none => return []
  | some b => return b

/-- generic/dataset.hxx:108-111 `chunkExists`. -/
def Dataset.chunkExists (ds : Dataset E) (c : List Nat) : Prog Bool := do
  let _ ← .ret (ds.handle c)
  storeExists (ds.chunkKey c)

/-- generic/dataset.hxx:114-117 `getChunkSize`. -/
def Dataset.getChunkSize (ds : Dataset E) (c : List Nat) : Res Nat := do
  let h ← ds.handle c
  return accumulateMul h.boundedShape

/-- generic/dataset.hxx:120-133 `getChunkShape` with `fromHeader = false`. -/
def Dataset.getChunkShape (ds : Dataset E) (c : List Nat) : Res (List Nat) := do
  let h ← ds.handle c
  return h.boundedShape

/-- generic/dataset.hxx:120-133 `getChunkShape` with `fromHeader = true`; only files have readable headers.  A missing file leaves the
    stream unreadable and the header variables uninitialised. -/
def Dataset.getChunkShapeFromHeader (ds : Dataset E) (c : List Nat) : Prog (List Nat) := do
  let h ← .ret (ds.handle c)
  if ds.backend = .s3 ∨ ds.isZarr then return h.boundedShape
  else
    match ← peek (ds.chunkKey c) with
    | none => .ret .ub
    | some b => .ret (readShapeFromHeader b)

/-- generic/dataset.hxx:178-195 `checkVarlenChunk`: (is varlen, size).  Only files have readable headers. -/
def Dataset.checkVarlenChunk (ds : Dataset E) (c : List Nat) : Prog (Bool × Nat) := do
  let h ← .ret (ds.handle c)
  if ds.backend = .s3 ∨ ds.isZarr then return (false, accumulateMul h.boundedShape)
  else if !(← storeExists (ds.chunkKey c)) then return (false, accumulateMul h.boundedShape)
  else
    match ← peek (ds.chunkKey c) with
    | none => .ret .ub
    | some b =>
      match ← .ret (readVarlenFromHeader b) with
      | none => return (false, accumulateMul h.boundedShape)
      | some n => return (true, n)

/-- generic/dataset.hxx:207-210 `removeChunk`, filesystem/handle.hxx:311-317, s3/handle.hxx:634-641. -/
def Dataset.removeChunk (ds : Dataset E) (c : List Nat) : Prog Unit := do
  let _ ← .ret (ds.handle c)
  if !ds.canWrite then Prog.throw .invalidArgument
  else update (ds.chunkKey c) fun _ => none

/-! ### Sharded datasets -/

/-- generic/sharded_dataset.hxx:38-47, 309-315: the additional members. -/
structure ShardedDataset (E : Elem) extends Dataset E where
  shardShape : List Nat
  cps : List Nat
  nSlots : Nat

/-- generic/sharded_dataset.hxx:38-47, the constructor. -/
def ShardedDataset.make (shape chunkShape shardShape : List Nat) (key : KeyCfg) (codec : Codec)
    (fill : E.T) (canWrite : Bool) (backend : Backend) : Res (ShardedDataset E) := do
  let ds ← Dataset.make shape chunkShape { key with isZarr := true } codec fill canWrite backend
  let cps ← chunksPerShard shardShape chunkShape
  return { ds with shardShape := shardShape, cps := cps, nSlots := numShardSlots cps }

/-- the handle of a shard (`ChunkHandleType shardChunk(handle_, shardCoord, shardShape_, shape())`):
    only its key is used, but its constructor computes a bounded shape. -/
def ShardedDataset.shardKey (ds : ShardedDataset E) (s : List Nat) : Res Key := do
  let _ ← computeBoundedShape s ds.shardShape ds.shape
  return getChunkKey ds.key s

/-- generic/sharded_dataset.hxx:300-307 `checkChunk` -/
def ShardedDataset.checkChunk (ds : ShardedDataset E) (c : List Nat) (isVarlen : Bool) : Res Unit :=
  if !ds.chunking.checkBlockCoordinate c then .throw .runtimeError
  else if isVarlen then .throw .runtimeError
  else .ok ()

/-- generic/sharded_dataset.hxx:171-192 `readShardBlobs`. -/
def ShardedDataset.readShardBlobs (ds : ShardedDataset E) (s : List Nat) : Prog (List Bytes) := do
  let k ← .ret (ds.shardKey s)
  match ← storeRead ds.backend k with
  | none => return List.replicate ds.nSlots []
  | some b =>
    match ← .ret (parseShardIndex b ds.nSlots) with
    | none => Prog.throw .runtimeError
    | some es => .ret (extractShardBlobs b es)

/-- generic/sharded_dataset.hxx:222-237 `writeShardBlobs`. -/
def ShardedDataset.writeShardBlobs (ds : ShardedDataset E) (s : List Nat) (blobs : List Bytes) :
    Prog Unit :=
  if !ds.canWrite then Prog.throw .invalidArgument
  else do
    let k ← .ret (ds.shardKey s)
    if allSlotsEmpty blobs then storeErase ds.backend k
    else do
      let out ← .ret (buildShard blobs)
      storeWrite ds.backend k out

/-- generic/sharded_dataset.hxx:240-245 `makeChunkBlob`. -/
def ShardedDataset.makeChunkBlob (ds : ShardedDataset E) (c : List Nat) (dataIn : List E.T) :
    Res (Option Bytes) := do
  let h ← ds.handle c
  dataToBuffer E ds.codec h dataIn ds.fill false 0

/-- generic/sharded_dataset.hxx:291-297: the critical section of `writeInnerBlob` (the lock is
    modelled in `Model/Mutex.lean`).  `blobs[slot]` out of range is undefined. -/
def ShardedDataset.writeInnerBlob (ds : ShardedDataset E) (c : List Nat) (blob : Option Bytes) :
    Prog Unit := do
  let s ← .ret (shardId c ds.cps)
  let slot ← .ret (shardSlot c ds.cps)
  let blobs ← ds.readShardBlobs s
  if blobs.length ≤ slot then .ret .ub
  else ds.writeShardBlobs s (blobs.set slot (blob.getD []))

/-- generic/sharded_dataset.hxx:53-66 `writeChunk`.  (`varSize` is ignored by the code.) -/
def ShardedDataset.writeChunk (ds : ShardedDataset E) (c : List Nat) (dataIn : List E.T)
    (isVarlen : Bool := false) : Prog Unit :=
  if !ds.canWrite then Prog.throw .invalidArgument
  else do
    let _ ← .ret (ds.handle c)
    .ret (ds.checkChunk c isVarlen)
    let blob ← .ret (ds.makeChunkBlob c dataIn)
    ds.writeInnerBlob c blob

/-- generic/sharded_dataset.hxx:257-259 `removeChunk`. -/
def ShardedDataset.removeChunk (ds : ShardedDataset E) (c : List Nat) : Prog Unit :=
  ds.writeInnerBlob c none

/-- generic/sharded_dataset.hxx:270-281 `readShard`: bytes and index, `none` if absent. -/
def ShardedDataset.readShard (ds : ShardedDataset E) (s : List Nat) :
    Prog (Option (Bytes × List ShardEntry)) := do
  let k ← .ret (ds.shardKey s)
  match ← storeRead ds.backend k with
  | none => return none
  | some b =>
    match ← .ret (parseShardIndex b ds.nSlots) with
    | none => Prog.throw .runtimeError
    | some es => return some (b, es)

/-- `entries[slot]` -/
def entryAt (es : List ShardEntry) (slot : Nat) : Res ShardEntry :=
  match es[slot]? with
  | some e => .ok e
  | none => .ub

/-- generic/sharded_dataset.hxx:75-89 `readRawChunk`. -/
def ShardedDataset.readRawChunk (ds : ShardedDataset E) (c : List Nat) : Prog Bytes := do
  let s ← .ret (shardId c ds.cps)
  match ← ds.readShard s with
  | none => return []
  | some (b, es) => do
    let slot ← .ret (shardSlot c ds.cps)
    let e ← .ret (entryAt es slot)
    if e.empty then return [] else .ret (slice b e.offset e.nbytes)

/-- generic/sharded_dataset.hxx:68-73 `readChunk`. -/
def ShardedDataset.readChunk (ds : ShardedDataset E) (c : List Nat) (dataOut : List E.T) :
    Prog (Bool × List E.T) := do
  let b ← ds.readRawChunk c
  let out ← .ret (decompress E ds.codec b dataOut ds.chunkSize)
  return (false, out)

/-- generic/sharded_dataset.hxx:97-104 `chunkExists`. -/
def ShardedDataset.chunkExists (ds : ShardedDataset E) (c : List Nat) : Prog Bool := do
  let s ← .ret (shardId c ds.cps)
  match ← ds.readShard s with
  | none => return false
  | some (_, es) => do
    let slot ← .ret (shardSlot c ds.cps)
    let e ← .ret (entryAt es slot)
    return !e.empty

/-- generic/sharded_dataset.hxx:197-216 `readShardRaw`: bytes, offsets and lengths of the slots. -/
def ShardedDataset.readShardRaw (ds : ShardedDataset E) (s : List Nat) :
    Prog (Option (Bytes × List (Nat × Nat))) := do
  match ← ds.readShard s with
  | none => return none
  | some (b, es) =>
    return some (b, es.map fun e => if e.empty then (0, 0) else (e.offset, e.nbytes))

end Z5
