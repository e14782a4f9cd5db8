import Verif.Spec.Grid
import Verif.Spec.Crc
import Verif.Model.Elem
import Verif.Model.Prog

/-!
# The stored form of arrays, after the format specifications (C81)

Which files other implementations of zarr and N5 expect, and what they expect in them, written after zarr-specs `v2.0`,
`v3.0`, `sharding-indexed` and the N5 README, not after the code.
-/

namespace Z5.Spec

/-- `n` in `k` bytes, the least significant byte first -/
def le (k n : Nat) : Bytes := (List.range k).map fun i => BitVec.ofNat 8 (n / 256 ^ i)

/-- `n` in `k` bytes, the most significant byte first -/
def be (k n : Nat) : Bytes := (le k n).reverse

/-- the positions of a block, the last axis running fastest ("C order") -/
def cOrder : List Nat → List (List Nat)
  | [] => [[]]
  | n :: s => (List.range n).flatMap fun i => (cOrder s).map (i :: ·)

/-- the positions of a block, the first axis running fastest ("F order") -/
def fOrder : List Nat → List (List Nat)
  | [] => [[]]
  | n :: s => (fOrder s).flatMap fun y => (List.range n).map (· :: y)

/-- `y` is a compressed form of `x`: decompressing `y` gives `x`.  How the streams of the compressors look is not
    part of the formats. -/
def Encodes (C : Codec) (y x : Bytes) : Prop :=
  match C with
  | .raw => y = x
  | .lib _ d => d y x.length = .ok x

/-- decimal digits -/
def decimal (i : Nat) : List Char := Nat.toDigits 10 i

/-- zarr v2, and zarr v3 with the chunk key encoding `v2`: the coordinates, separated -/
def v2Name (sep : List Char) (c : List Nat) : Key := List.intercalate sep (c.map decimal)

/-- zarr v3 with the chunk key encoding `default`: as above with a leading `c` -/
def v3Name (sep : List Char) (c : List Nat) : Key := 'c' :: (c.map fun i => sep ++ decimal i).flatten

/-- the name of a chunk, given the version of zarr, the chunk key encoding of version 3, and the separator -/
def zarrName (version : Nat) (encoding sep : List Char) : List Nat → Key :=
  if version = 3 ∧ encoding = "default".toList then v3Name sep else v2Name sep

/-- N5: the coordinates are nested directories -/
def n5Name (g : List Nat) : Key := List.intercalate ['/'] (g.map decimal)

variable (E : Elem)

/-- The bytes `b` are a chunk of zarr: the elements of `P` in the box of chunk `c`, in little endian and C order, compressed. -/
def IsZarrChunk (chunk : List Nat) (C : Codec) (P : List Nat → E.T) (c : List Nat) (b : Bytes) : Prop :=
  Encodes C b ((cOrder chunk).flatMap fun i => E.toBytes (P (addV (mulV c chunk) i)))

/-- The chunks of the array are absent (then their elements have the fill value) or a chunk of zarr.  Chunks have their
    full shape also where the array ends; what they have outside of the array does not matter (`P` agrees with the
    array `A` where this is defined). -/
def ZarrChunks (shape chunk : List Nat) (C : Codec) (fill : E.T) (stored : List Nat → Option Bytes)
    (A : List Nat → E.T) : Prop :=
  ∃ P : List Nat → E.T, (∀ x, InBox x shape → P x = A x) ∧
    ∀ c, InGrid shape chunk c →
      match stored c with
      | none => ∀ i, InBox i chunk → P (addV (mulV c chunk) i) = fill
      | some b => IsZarrChunk E chunk C P c b

/-- The files `σ` are an array of zarr v2 or v3 (without sharding) with the elements `A`. -/
def IsZarrArray (shape chunk : List Nat) (name : List Nat → Key) (C : Codec) (fill : E.T) (σ : Store)
    (A : List Nat → E.T) : Prop :=
  ZarrChunks E shape chunk C fill (fun c => σ (name c)) A

/-- The files `σ` are an array of N5 with the elements `B`.  The coordinates are those of N5: the first axis runs
    fastest.  A block starts with its mode (0), its number of axes and its extents; the elements follow in big endian,
    compressed.  Blocks are cut off where the array ends. -/
def IsN5Array (dims block : List Nat) (C : Codec) (fill : E.T) (σ : Store) (B : List Nat → E.T) : Prop :=
  ∀ g, InGrid dims block g →
    let ext := extV dims block g
    match σ (n5Name g) with
    | none => ∀ i, InBox i ext → B (addV (mulV g block) i) = fill
    | some b => ∃ y, b = be 2 0 ++ be 2 dims.length ++ ext.flatMap (be 4) ++ y ∧
        Encodes C y ((fOrder ext).flatMap fun i => (E.toBytes (B (addV (mulV g block) i))).reverse)

/-- The bytes `b` are a shard with `n` slots, and `slot k` is what the `k`-th of them has, if it is not empty: the chunks
    in any order, possibly with other bytes in between, then the index (offset and length of every slot, or twice
    2^64 - 1), then the CRC-32C of the index. -/
def IsShard (n : Nat) (b : Bytes) (slot : Nat → Option Bytes) : Prop :=
  ∃ (data : Bytes) (entries : List (Nat × Nat)),
    entries.length = n ∧
    (let index := entries.flatMap fun e => le 8 e.1 ++ le 8 e.2
     b = data ++ index ++ le 4 (crc32c index).toNat) ∧
    ∀ k o l, entries[k]? = some (o, l) →
      match slot k with
      | none => o = 2 ^ 64 - 1 ∧ l = 2 ^ 64 - 1
      | some x => o < 2 ^ 64 - 1 ∧ l < 2 ^ 64 - 1 ∧ 0 < l ∧ o + l ≤ data.length ∧ x = (data.drop o).take l

/-- The files `σ` are an array of zarr v3 with the codec `sharding_indexed` (index at the end, with checksum) and the
    elements `A`: the shards of the grid are absent or shards, with the chunks inside of the shard in C order. -/
def IsShardedArray (shape chunk perShard : List Nat) (name : List Nat → Key) (C : Codec) (fill : E.T) (σ : Store)
    (A : List Nat → E.T) : Prop :=
  ∃ stored : List Nat → Option Bytes,
    (∀ s, InGrid shape (mulV perShard chunk) s →
      match σ (name s) with
      | none => ∀ j, InBox j perShard → stored (addV (mulV s perShard) j) = none
      | some b => ∃ slot, IsShard (cOrder perShard).length b slot ∧
          ∀ k j, (cOrder perShard)[k]? = some j → stored (addV (mulV s perShard) j) = slot k) ∧
    ZarrChunks E shape chunk C fill stored A

end Z5.Spec
