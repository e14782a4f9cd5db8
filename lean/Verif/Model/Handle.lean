import Verif.Model.Util

/-!
# Model of `handle.hxx`: chunk handles (bounded shape, storage key)
-/

namespace Z5

/-- handle.hxx:226-227, one axis of `computeBoundedShape`. -/
def boundedAxis (idx dflt ds : Nat) : Nat :=
  if wmul (wadd idx 1) dflt ≤ ds then dflt else wsub ds (wmul idx dflt)

/-- handle.hxx:225-228, the loop. -/
def boundedLoop : List Nat → List Nat → List Nat → List Nat
  | i :: is, d :: ds, s :: ss => boundedAxis i d s :: boundedLoop is ds ss
  | _, _, _ => []

/-- handle.hxx:222-230 `computeBoundedShape` (run by the constructor, 143-150): reads
    `chunkIndices_[d]` and `datasetShape_[d]` for all `d < defaultShape_.size()`. -/
def computeBoundedShape (idx dflt ds : List Nat) : Res (List Nat) :=
  if idx.length < dflt.length ∨ ds.length < dflt.length then .ub
  else .ok (boundedLoop idx dflt ds)

/-- What `getChunkKey` needs to know about the dataset (handle.hxx:189-191,
    filesystem/handle.hxx:273): container format, zarr delimiter, zarr format number and v3 chunk
    key encoding. -/
structure KeyCfg where
  isZarr : Bool
  delimiter : List Char
  zarrFormat : Nat
  encoding : List Char
  deriving DecidableEq, Repr

/-- handle.hxx:200-202: `for idx : indices  name += zarrDelimiter + std::to_string(idx)`. -/
def v3KeyLoop (delim : List Char) : List Nat → List Char → List Char
  | [], name => name
  | i :: is, name => v3KeyLoop delim is (name ++ (delim ++ toStr i))

/-- handle.hxx:189-217 `getChunkKey`. -/
def getChunkKey (k : KeyCfg) (indices : List Nat) : List Char :=
  if k.isZarr then
    if k.zarrFormat = 3 ∧ k.encoding = "default".toList then v3KeyLoop k.delimiter indices ['c']
    else join indices k.delimiter
  else join indices.reverse ['/']

end Z5
