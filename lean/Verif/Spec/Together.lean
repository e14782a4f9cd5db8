import Verif.Spec.Container

/-!
# Several writing calls at the same time (C88)

The tasks of all calls are run together, under any schedule; the calls are on one or several arrays of a container.
-/

namespace Z5

open Spec

/-- A modifying call on the dataset that writes `w` has started the tasks `ts`. -/
inductive AnyDataset.Starts {E : Elem} (d : AnyDataset E) : Write E.T → List (Prog Unit) → Prop
  /-- `writeSubarray` of a (possibly strided) array view, or `writeScalar` -/
  | region (call : RegionCall E) (val : List Nat → E.T) (scratch : Nat → List E.T) (ts : List (Prog Unit)) :
      call.Valid d.base → (∀ i, InBox i call.shape → call.value i = some (val i)) → d.start call scratch = .ok ts →
      Starts d ⟨call.off, call.shape, val⟩ ts
  /-- `writeChunk` -/
  | chunk (c : List Nat) (data : List E.T) (val : List Nat → E.T) : InGrid d.base.shape d.base.chunkShape c →
      data.length = prod (d.stored c) → (∀ i, InBox i (d.stored c) → data[ravel (d.stored c) i]? = some (val i)) →
      Starts d ⟨mulV c d.base.chunkShape, d.stored c, val⟩ [d.writeChunk c data]
  /-- `removeChunk` -/
  | remove (c : List Nat) : InGrid d.base.shape d.base.chunkShape c →
      Starts d ⟨mulV c d.base.chunkShape, d.stored c, fun _ => d.base.fill⟩ [d.removeChunk c]

/-- A modifying call on an array of a container -/
structure WriteJob (Ty : ElemTypes) where
  path : Path
  obj : DatasetObj
  item : ArrayItem Ty
  data : AnyDataset (Ty.elem item.dtype)
  write : Write (Ty.elem item.dtype).T
  tasks : List (Prog Unit)

namespace WriteJob

variable {Ty : ElemTypes}

/-- The call is on an object, not read-only, for the array `j.item` of the tree, and has started its tasks. -/
structure Ready (j : WriteJob Ty) (L : Libs) (T : Tree Ty) (os : List (Path × DatasetObj)) : Prop where
  object : (j.path, j.obj) ∈ os
  item : T j.path = some (.array j.item)
  mode : j.obj.handle.mode ≠ .r
  typed : j.obj.typed L (Ty.cast j.item.dtype) = .ok j.data
  starts : j.data.Starts j.write j.tasks

/-- what is stored in one file: a chunk or a shard -/
def part (j : WriteJob Ty) : List Nat := j.item.shards.getD j.item.chunks

/-- Two calls: on different arrays, or no file of the array has elements of both regions. -/
def Apart (i j : WriteJob Ty) : Prop := i.path = j.path → ∀ c x y, InRegion x i.write.off i.write.shape →
  InRegion y j.write.off j.write.shape → InChunk i.item.shape i.part c x → ¬ InChunk i.item.shape i.part c y

/-- its tasks, on the files of the array -/
def onFiles (j : WriteJob Ty) (C : Container) : List (FsProg Unit) := j.data.onFiles (C.root ++ j.path) j.tasks

end WriteJob
end Z5
