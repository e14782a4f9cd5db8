import Verif.Model.Opened
import Verif.Model.Python

/-!
# Removing datasets and groups

`removeDataset` of `util/functions.hxx` on the file system, and `del` of the Python module.
-/

namespace Z5

variable {E : Elem}

/-- a program that runs alone -/
def FsProg.alone {α : Type} (t : FsProg α) : FsM α := fun σ => t.run σ

/-- util/threadpool.hxx:465-479 `parallel_foreach_single_thread`: one call after the other, up to the first exception -/
def FsProg.runEach : List (FsProg Unit) → FsM Unit
  | [] => return ()
  | t :: ts => do
    t.alone
    runEach ts

/-- util/functions.hxx:64-84 `removeDataset` with one thread: the loop over the chunks (73-80), then `dataset.remove()` -/
def DatasetObj.removeDataset (o : DatasetObj) (L : Libs) (elem : FillVal → E.T) : FsM Unit := do
  let d ← FsM.lift (o.typed L elem)
  let ts ← FsM.lift d.removeDataset
  FsProg.runEach (ts.map (·.onFiles o.handle.path d.base.key.nested))
  o.handle.remove

/-- group.py:66-75 `__delitem__`.  The type of the elements of a dataset is chosen by the data type in its metadata. -/
def PyGroup.delItem (g : PyGroup) (n : PyName) (L : Libs) (Ty : ElemTypes) : FsM Unit := do
  if !g.handle.mode.canWrite then FsM.lift (.throw .invalidArgument)
  else if !(← g.contains n) then FsM.lift (.throw .keyError)
  else if ← g.handle.isSubGroup n.parts then (g.handle.group n.parts).remove
  else do
    match ← g.getItem n with
    | .inr o => o.removeDataset L (Ty.cast o.info.dtype)
    -- not reached: `self[name]` asks `is_sub_group` again
    | .inl _ => FsM.lift (.throw .attributeError)

end Z5
