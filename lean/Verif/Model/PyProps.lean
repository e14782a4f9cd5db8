import Verif.Model.PyDataset

/-!
# The properties of dataset objects in Python

`src/python/module/z5py/dataset.py` and `src/python/lib/dataset.cxx`: `shape`, `chunks`, `dtype` and others (`compression` and
`compression_opts` are in `Model/PyDataset.lean`).
-/

namespace Z5

namespace DatasetObj

/-- dataset.py:362-366 `shape`, lib/dataset.cxx:230, dataset.hxx:74 -/
def pyShape (ds : DatasetObj) : List Nat := ds.info.shape

/-- dataset.py:368-372 `ndim`, lib/dataset.cxx:234, dataset.hxx:73 (an `unsigned`: 32 bit) -/
def pyNdim (ds : DatasetObj) : Nat := ds.info.shape.length % 2 ^ 32

/-- dataset.py:374-378 `size`, lib/dataset.cxx:235, dataset.hxx:76-78 -/
def pySize (ds : DatasetObj) : Nat := accumulateMul ds.info.shape

/-- dataset.py:455-458 `__len__`, lib/dataset.cxx:231 `ds.shape(0)`, dataset.hxx:75; Python raises an `OverflowError` (here
    `outOfRange`) for lengths of 2^63 and more -/
def pyLen (ds : DatasetObj) : Res Nat :=
  match ds.info.shape with
  | [] => .ub
  | n :: _ => if n < 2 ^ 63 then .ok n else .throw .outOfRange

/-- dataset.py:380-384 `chunks`, lib/dataset.cxx:232, dataset.hxx:66 -/
def pyChunks (ds : DatasetObj) : List Nat := ds.info.chunkShape

/-- dataset.py:386-391 `shards`, lib/dataset.cxx:233, dataset.hxx:96, generic/sharded_dataset.hxx:163 -/
def pyShards (ds : DatasetObj) : Option (List Nat) :=
  let shards := if ds.sharded then ds.info.shardShape else []
  if shards = [] then none else some shards

/-- lib/dataset.cxx:236: `operator[]` of a `std::map`, the empty text for a missing key -/
def implDtype (ds : DatasetObj) : String :=
  match enumAt Datatype.dtypeToN5 ds.info.dtype with
  | .ok s => s
  | _ => ""

/-- dataset.py:393-397 `dtype`: the name of the numpy type; `np.dtype('')` is a `TypeError` -/
def pyDtype (ds : DatasetObj) : Res String :=
  if ds.implDtype = "" then .throw .typeError else .ok ds.implDtype

/-- dataset.py:350-354 `is_zarr`, lib/dataset.cxx:237, generic/dataset.hxx `isZarr` -/
def pyIsZarr (ds : DatasetObj) : Bool := ds.info.isZarr

/-- dataset.py:399-403 `chunks_per_dimension`, lib/dataset.cxx:239-241, dataset.hxx:31-38, 88 -/
def pyChunksPerDimension (ds : DatasetObj) : Res (List Nat) := do
  let B ← Blocking.make ds.info.shape ds.info.chunkShape
  return B.blocksPerDim

/-- dataset.py:405-409 `number_of_chunks`, lib/dataset.cxx:238, dataset.hxx:87 -/
def pyNumberOfChunks (ds : DatasetObj) : Res Nat := do
  let B ← Blocking.make ds.info.shape ds.info.chunkShape
  return B.numberOfBlocks

end DatasetObj

end Z5
