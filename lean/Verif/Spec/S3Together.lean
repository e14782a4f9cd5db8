import Verif.Model.S3Together
import Verif.Spec.S3Container
import Verif.Spec.Together

/-!
# Several writing calls at the same time on the arrays of a container on S3 (C89)
-/

namespace Z5

open Spec

/-- A modifying call on an array of a container on S3 -/
structure S3WriteJob (Ty : ElemTypes) where
  path : Path
  obj : S3DatasetObj
  item : ArrayItem Ty
  data : AnyDataset (Ty.elem item.dtype)
  write : Write (Ty.elem item.dtype).T
  tasks : List (Prog Unit)

namespace S3WriteJob

variable {Ty : ElemTypes}

/-- The call is on an object, not read-only, for the array `j.item` of the tree, and has started its tasks. -/
structure Ready (j : S3WriteJob Ty) (L : Libs) (T : Tree Ty) (os : List (Path × S3DatasetObj)) : Prop where
  object : (j.path, j.obj) ∈ os
  item : T j.path = some (.array j.item)
  mode : j.obj.obj.handle.mode ≠ .r
  typed : j.obj.typed L (Ty.cast j.item.dtype) = .ok j.data
  starts : j.data.Starts j.write j.tasks

/-- what is stored in one object of the bucket: a chunk or a shard -/
def part (j : S3WriteJob Ty) : List Nat := j.item.shards.getD j.item.chunks

/-- Two calls: on different arrays, or no object in the bucket has elements of both regions. -/
def Apart (i j : S3WriteJob Ty) : Prop := i.path = j.path → ∀ c x y, InRegion x i.write.off i.write.shape →
  InRegion y j.write.off j.write.shape → InChunk i.item.shape i.part c x → ¬ InChunk i.item.shape i.part c y

/-- its tasks, on the objects of the array -/
def onObjects (j : S3WriteJob Ty) (C : S3Container) : List (Prog Unit) := j.tasks.map (·.onObjects (C.key j.path))

end S3WriteJob
end Z5
