import Verif.Model.Crc32c
import Verif.Model.Blocking

/-!
# Model of `util/sharding.hxx`
-/

namespace Z5

/-- util/sharding.hxx:30 `SHARD_EMPTY` -/
def shardEmpty : Nat := 2 ^ 64 - 1

/-- util/sharding.hxx:32-38 `ShardEntry` -/
structure ShardEntry where
  offset : Nat
  nbytes : Nat
  deriving DecidableEq, Repr

/-- util/sharding.hxx:35-37 `ShardEntry::empty` -/
def ShardEntry.empty (e : ShardEntry) : Bool := e.offset = shardEmpty || e.nbytes = shardEmpty

/-- util/sharding.hxx:41-48 `chunksPerShard` -/
def chunksPerShard (shardShape innerShape : List Nat) : Res (List Nat) :=
  if innerShape.length < shardShape.length then .ub
  else if 0 ∈ innerShape.take shardShape.length then .ub      -- division by zero
  else .ok (List.zipWith (· / ·) shardShape innerShape)

/-- util/sharding.hxx:50-53 `numShardSlots` -/
def numShardSlots (cps : List Nat) : Nat := accumulateMul cps

/-- util/sharding.hxx:56-63 `shardId` -/
def shardId (innerId cps : List Nat) : Res (List Nat) :=
  if cps.length < innerId.length then .ub
  else if 0 ∈ cps.take innerId.length then .ub                -- division by zero
  else .ok (List.zipWith (· / ·) innerId cps)

/-- util/sharding.hxx:68-72, the loop of `shardSlot`. -/
def shardSlotLoop : List Nat → List Nat → Nat → Nat
  | i :: is, c :: cs, slot => shardSlotLoop is cs (wadd (wmul slot c) (i % c))
  | _, _, slot => slot

/-- util/sharding.hxx:66-74 `shardSlot` -/
def shardSlot (innerId cps : List Nat) : Res Nat :=
  if cps.length < innerId.length then .ub
  else if 0 ∈ cps.take innerId.length then .ub                -- modulo zero
  else .ok (shardSlotLoop innerId cps 0)

/-- util/sharding.hxx:116-128: the entry loop of `parseShardIndex`; `s` counts up from the first
    argument, `n` iterations remain.  `none`: `return false`. -/
def parseEntries (shard : Bytes) (indexStart : Nat) : Nat → Nat → Res (Option (List ShardEntry))
  | _, 0 => .ok (some [])
  | s, n + 1 => do
    let o ← slice shard (indexStart + 16 * s) 8
    let b ← slice shard (indexStart + 16 * s + 8) 8
    let e : ShardEntry := { offset := leNat o, nbytes := leNat b }
    if !e.empty && (e.offset > indexStart || e.nbytes > indexStart - e.offset) then
      return none
    else do
      let rest ← parseEntries shard indexStart (s + 1) n
      return rest.map (e :: ·)

/-- util/sharding.hxx:104-130 `parseShardIndex`; `none` stands for the result `false`.  The footer
    size is computed modulo 2^64; `entries.resize(nSlots)` throws `std::length_error` when 16-byte
    entries exceed the maximal vector size 2^63 - 1 bytes. -/
def parseShardIndex (shard : Bytes) (nSlots : Nat) : Res (Option (List ShardEntry)) :=
  let footer := wadd (wmul 16 nSlots) 4
  if shard.length < footer then .ok none
  else do
    let indexStart := shard.length - footer
    let storedCrc ← slice shard (shard.length - 4) 4
    let index ← slice shard indexStart (wmul 16 nSlots)
    if (crc32c index).toNat ≠ leNat storedCrc then return none
    else if nSlots ≥ 2 ^ 59 then .throw .lengthError
    else parseEntries shard indexStart 0 nSlots

/-- util/sharding.hxx:133-149 `extractShardBlobs` -/
def extractShardBlobs (shard : Bytes) : List ShardEntry → Res (List Bytes)
  | [] => .ok []
  | e :: es => do
    let blob ← if e.empty then .ok [] else slice shard e.offset e.nbytes
    let rest ← extractShardBlobs shard es
    return blob :: rest

/-- util/sharding.hxx:158-167: the data region and the index entries. -/
def buildEntries : List Bytes → Bytes → List ShardEntry × Bytes
  | [], out => ([], out)
  | b :: bs, out =>
    if b = [] then
      let r := buildEntries bs out
      ({ offset := shardEmpty, nbytes := shardEmpty } :: r.1, r.2)
    else
      let r := buildEntries bs (out ++ b)
      ({ offset := out.length, nbytes := b.length } :: r.1, r.2)

/-- util/sharding.hxx:170-175: the serialised index. -/
def indexBytes (entries : List ShardEntry) : Bytes :=
  entries.flatMap fun e => leBytes 8 e.offset ++ leBytes 8 e.nbytes

/-- util/sharding.hxx:152-179 `buildShard`.  A `std::vector<char>` cannot hold more than 2^63 - 1
    bytes (`std::length_error`). -/
def buildShard (blobs : List Bytes) : Res Bytes :=
  let r := buildEntries blobs []
  let index := indexBytes r.1
  let out := r.2 ++ index ++ leBytes 4 (crc32c index).toNat
  if out.length < 2 ^ 63 then .ok out else .throw .lengthError

/-- util/sharding.hxx:182-189 `allSlotsEmpty` -/
def allSlotsEmpty (blobs : List Bytes) : Bool := blobs.all fun b => decide (b = [])

end Z5
