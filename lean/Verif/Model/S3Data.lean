import Verif.Model.Opened
import Verif.Model.S3Nodes

/-!
# Data of datasets on S3

The programs of `Model/Dataset.lean` with the chunks in a bucket: `s3/dataset.hxx`, `s3/store.hxx`, `s3/handle.hxx`.
-/

namespace Z5

variable {α : Type} {E : Elem}

/-- s3/handle.hxx:630-641: the key of the object that holds a chunk (shard) of the dataset `name` -/
def chunkObject (name k : Key) : Key := name ++ '/' :: k

/-- s3/handle.hxx:178-221: the content of the object of a chunk.  Simplification: an object with JSON text (a metadata
    document) in place of a chunk counts as none; chunks do not have the names of documents. -/
def Bucket.chunks (b : Bucket) (name : Key) : Store := fun k =>
  match b.get (chunkObject name k) with
  | some (.file bytes) => some bytes
  | _ => none

/-- One request on the object of a chunk: s3/handle.hxx:178-221 (it stays as it is), 236-247 (it is replaced), 257-267 (it is
    deleted) -/
def Bucket.onChunk (b : Bucket) (name k : Key) (f : Option Bytes → Option Bytes) : Bucket :=
  if f (b.chunks name k) = b.chunks name k then b
  else
    match f (b.chunks name k) with
    | some bytes => b.put (chunkObject name k) (.file bytes)
    | none => b.erase [chunkObject name k]

namespace Prog

/-- task `i` sends its next request -/
def stepS3 (name : Key) (i : Nat) (c : List (Prog α) × Bucket) : List (Prog α) × Bucket :=
  match c.1[i]? with
  | some (.act k f cont) => (c.1.set i (cont (c.2.chunks name k)), c.2.onChunk name k f)
  | _ => c

/-- tasks on the dataset `name` under a schedule -/
def interleaveS3 (name : Key) : List Nat → List (Prog α) × Bucket → List (Prog α) × Bucket
  | [], c => c
  | i :: is, c => interleaveS3 name is (stepS3 name i c)

end Prog

/-- s3/factory.hxx:15-33 `makeDatasetTyped` -/
def S3DatasetObj.typed (o : S3DatasetObj) (L : Libs) (elem : FillVal → E.T) : Res (AnyDataset E) :=
  o.obj.typed L elem .s3

end Z5
