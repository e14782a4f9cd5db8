import Verif.Model.Dataset
import Verif.Model.Index

/-!
# Chunks in Python

`read_chunk`, `write_chunk`, `chunk_exists`, `get_chunk_shape` and `remove_chunk` of datasets in Python:
`src/python/lib/dataset.cxx`, `src/python/module/z5py/dataset.py`.
-/

namespace Z5

variable {E : Elem}

open Prog

/-- An array that is given to `write_chunk`: one of the element type of the dataset in C order, one of another type, or one
    that is not accepted by any of the functions that are exported for `write_chunk` (dataset.cxx:193-198), because no type of
    the library is its type or because it is not in C order (`noconvert`). -/
inductive ChunkArg (T : Type) where
  | array (a : NpArray T)
  | otherType
  | notAccepted

/-- dataset.cxx:103-147 `readPyChunk`, dataset.py:667-679 `read_chunk`.  `fresh n` is the memory for `n` elements that
    `new T[n]` gives, which is not initialised.  The function for the element type is taken by the name of the data type, which
    complex types do not have (`AttributeError`); this is not modelled here. -/
def Dataset.pyReadChunk (ds : Dataset E) (c : List Nat) (fresh : Nat → List E.T) : Prog (Option (NpArray E.T)) := do
  if !(← ds.chunkExists c) then return none
  else
    let (isVarlen, n) ← ds.checkVarlenChunk c
    let shape ← if isVarlen then pure [n] else if ds.isZarr then pure ds.chunkShape else .ret (ds.getChunkShape c)
    let (_, data) ← ds.readChunk c (fresh (accumulateMul shape))
    return some ⟨shape, data⟩

/-- dataset.cxx:150-173 `writePyChunk` and dataset.py:654-665 `write_chunk`.  For arrays that are not accepted the exception
    of nanobind is a `TypeError`.  The type is checked (generic/dataset.hxx:101-106) before the number of elements. -/
def Dataset.pyWriteChunk (ds : Dataset E) (c : List Nat) (data : ChunkArg E.T) (varlen : Bool) : Prog Unit :=
  if ds.isZarr && varlen then Prog.throw .runtimeError
  else
    match data with
    | .notAccepted => Prog.throw .typeError
    | .otherType => Prog.throw .runtimeError
    | .array a => do
      if !varlen then
        let expected ← if ds.isZarr then pure ds.chunkSize else .ret (ds.getChunkSize c)
        if a.data.length ≠ expected then Prog.throw .runtimeError
        else ds.writeChunk c a.data false 0
      else ds.writeChunk c a.data true a.data.length

/-- dataset.cxx:103-147 `readPyChunk` for a sharded dataset: `isZarr` is true, and `checkVarlenChunk`
    (generic/sharded_dataset.hxx:129-133) is false. -/
def ShardedDataset.pyReadChunk (ds : ShardedDataset E) (c : List Nat) (fresh : Nat → List E.T) :
    Prog (Option (NpArray E.T)) := do
  if !(← ds.chunkExists c) then return none
  else
    let _ ← .ret (ds.handle c)
    let (_, data) ← ds.readChunk c (fresh (accumulateMul ds.chunkShape))
    return some ⟨ds.chunkShape, data⟩

/-- dataset.cxx:150-173 `writePyChunk` and dataset.py:654-665 `write_chunk` for a sharded dataset -/
def ShardedDataset.pyWriteChunk (ds : ShardedDataset E) (c : List Nat) (data : ChunkArg E.T) (varlen : Bool) : Prog Unit :=
  if varlen then Prog.throw .runtimeError
  else
    match data with
    | .notAccepted => Prog.throw .typeError
    | .otherType => Prog.throw .runtimeError
    | .array a => if a.data.length ≠ ds.chunkSize then Prog.throw .runtimeError else ds.writeChunk c a.data false

end Z5
