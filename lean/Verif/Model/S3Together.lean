import Verif.Model.S3Data

/-!
# Tasks on the objects of several datasets in a bucket

`Model/S3Data.lean` runs tasks on the chunks of one dataset.  Here every task has the name of its dataset, so that calls on
several datasets can run at the same time.
-/

namespace Z5

variable {α : Type}

/-- s3/handle.hxx:630-641, s3/dataset.hxx: a program on the chunks of the dataset `name` addresses its objects in the bucket. -/
def Prog.onObjects (name : Key) : Prog α → Prog α
  | .ret r => .ret r
  | .act k f c => .act (chunkObject name k) f fun v => (c v).onObjects name

/-- s3/handle.hxx:178-221: the content of an object.  Simplification as for `Bucket.chunks`. -/
def Bucket.content (b : Bucket) (k : Key) : Option Bytes :=
  match b.get k with
  | some (.file bytes) => some bytes
  | _ => none

/-- One request on an object, as `Bucket.onChunk`: s3/handle.hxx:178-221, 236-247, 257-267 -/
def Bucket.onObject (b : Bucket) (k : Key) (f : Option Bytes → Option Bytes) : Bucket :=
  if f (b.content k) = b.content k then b
  else
    match f (b.content k) with
    | some bytes => b.put k (.file bytes)
    | none => b.erase [k]

namespace Prog

/-- task `i` sends its next request (s3/handle.hxx:178-267) -/
def stepObjects (i : Nat) (c : List (Prog α) × Bucket) : List (Prog α) × Bucket :=
  match c.1[i]? with
  | some (.act k f cont) => (c.1.set i (cont (c.2.content k)), c.2.onObject k f)
  | _ => c

/-- tasks on objects of the bucket under a schedule: the requests of all tasks in any order -/
def interleaveObjects : List Nat → List (Prog α) × Bucket → List (Prog α) × Bucket
  | [], c => c
  | i :: is, c => interleaveObjects is (stepObjects i c)

end Prog
end Z5
