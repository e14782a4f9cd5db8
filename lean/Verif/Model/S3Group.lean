import Verif.Model.Pickle
import Verif.Model.PyDataset
import Verif.Model.Remove
import Verif.Model.S3Data
import Verif.Model.S3Python

/-!
# Groups on S3 in the Python module

`Group` of `src/python/module/z5py/group.py` and the creation of datasets of `dataset.py`, with a handle of S3.  Names are
texts.
-/

namespace Z5

variable {E : Elem}

/-- `name.lstrip('/')` -/
def pyLstrip (n : Key) : Key := n.dropWhile (· == '/')

/-- A program on the chunks of the dataset `name` that runs alone.  Simplification, as in `Model/S3Data.lean`: requests on
    chunks do not fail, and others do not change chunks meanwhile. -/
def Prog.onS3 {α : Type} (name : Key) : Prog α → S3M α
  | .ret r => S3M.lift r
  | .act k f cont => fun w => (cont (w.bucket.chunks name k)).onS3 name ⟨w.events, w.bucket.onChunk name k f⟩

/-- util/threadpool.hxx:465-479 `parallel_foreach_single_thread`: one call after the other, up to the first exception -/
def Prog.eachOnS3 (name : Key) : List (Prog Unit) → S3M Unit
  | [] => return ()
  | t :: ts => do
    t.onS3 name
    eachOnS3 name ts

/-- util/functions.hxx:64-84 `removeDataset` with one thread: the loop over the chunks (73-80), then `dataset.remove()`
    (generic/dataset.hxx:211-213, s3/handle.hxx:607-613) -/
def S3DatasetObj.removeDataset (o : S3DatasetObj) (L : Libs) (elem : FillVal → E.T) : S3M Unit := do
  let d ← S3M.lift (o.typed L elem)
  let ts ← S3M.lift d.removeDataset
  Prog.eachOnS3 o.name ts
  S3Handle.remove ⟨o.name, o.obj.handle.mode⟩

/-- factory.hxx:165-191 `createDataset` with options as JSON; lib/factory.cxx:21-34 -/
def S3Handle.createDatasetJson (root : S3Handle) (key : Key) (a : CreateArgs) (options : Json) : S3M S3DatasetObj := do
  let _ ← S3M.lift (Meta.atOrRuntime Compressor.stringToCompressor a.compressor)
  let opts ← S3M.lift (do jsonToOptions (← options.items) [])
  root.createDataset key { a with options := opts }

namespace S3PyGroup

/-- group.py:63-64 `__contains__` -/
def contains (g : S3PyGroup) (n : Key) : S3M Bool := g.handle.has (pyLstrip n)

/-- group.py:77-96 `__getitem__` -/
def item (g : S3PyGroup) (n : Key) : S3M (S3PyGroup ⊕ S3DatasetObj) := g.getItem (pyLstrip n)

/-- group.py:151-169 `create_group`; lib/factory.cxx:53-66: the name is not stripped. -/
def createGroup (g : S3PyGroup) (n : Key) : S3M S3PyGroup := do
  if !g.handle.mode.canWrite then S3M.lift (.throw .invalidArgument)
  else if ← g.contains n then S3M.lift (.throw .keyError)
  else
    g.handle.createGroup n g.zarrFormat
    return ⟨g.handle.child n, g.zarrFormat⟩

/-- group.py:171-196 `require_group`: the name is not stripped. -/
def requireGroup (g : S3PyGroup) (n : Key) : S3M S3PyGroup := do
  if ← g.contains n then
    if !(← g.handle.isSubGroup n) then S3M.lift (.throw .typeError)
    else return ⟨g.handle.child n, g.zarrFormat⟩
  else if !g.handle.mode.canWrite then S3M.lift (.throw .invalidArgument)
  else
    g.handle.createGroup n g.zarrFormat
    return ⟨g.handle.child n, g.zarrFormat⟩

/-- group.py:243-246: `for part in parts[:-1]: group = group.require_group(part)` -/
def requireGroups (g : S3PyGroup) : List Key → S3M S3PyGroup
  | [] => return g
  | n :: ns => do (← g.requireGroup n).requireGroups ns

/-- dataset.py:249-342 `_create_dataset` (`is_zarr` is asked for after shape and chunks have been checked; that makes no
    difference unless it throws).  The name is not stripped. -/
def newDataset (g : S3PyGroup) (n : Key) (a : PyCreateArgs) : S3M S3DatasetObj := do
  let isZarr ← g.handle.isZarr
  let (args, options) ← S3M.lift (a.resolve isZarr g.zarrFormat)
  g.handle.createDatasetJson n args (.obj options)

/-- group.py:198-259 `create_dataset` -/
def createDataset (g : S3PyGroup) (n : Key) (a : PyCreateArgs) : S3M S3DatasetObj := do
  if !g.handle.mode.canWrite then S3M.lift (.throw .invalidArgument)
  else if ← g.contains n then S3M.lift (.throw .keyError)
  else if (pySplit (pyLstrip n)).length > 1 then
    let g' ← g.requireGroups (pySplit (pyLstrip n)).dropLast
    -- the method is called again, with the last part
    let last := (pySplit (pyLstrip n)).getLast?.getD []
    if !g'.handle.mode.canWrite then S3M.lift (.throw .invalidArgument)
    else if ← g'.contains last then S3M.lift (.throw .keyError)
    else g'.newDataset last a
  else g.newDataset n a

/-- dataset.py:199-246 `_require_dataset`; `shape` is not `None`.  The name of the existing data type is one of N5
    (lib/dataset.cxx:236). -/
def requireDataset (g : S3PyGroup) (n : Key) (a : PyCreateArgs) : S3M S3DatasetObj := do
  if ← g.handle.has n then
    if ← g.handle.isSubGroup n then S3M.lift (.throw .typeError)
    else
      let ds ← g.handle.openDataset n
      if a.shape.any (· != ds.obj.info.shape) then S3M.lift (.throw .typeError)
      else if a.chunks.any (· != ds.obj.info.chunkShape) then S3M.lift (.throw .typeError)
      else if a.dtype.any (fun t => !decide (enumAt Datatype.dtypeToN5 ds.obj.info.dtype = .ok t)) then
        S3M.lift (.throw .typeError)
      else return ds
  else if !g.handle.mode.canWrite then S3M.lift (.throw .invalidArgument)
  else g.newDataset n a

/-- group.py:66-75 `__delitem__`.  The type of the elements of a dataset is chosen by the data type in its metadata. -/
def delItem (g : S3PyGroup) (n : Key) (L : Libs) (Ty : ElemTypes) : S3M Unit := do
  if !g.handle.mode.canWrite then S3M.lift (.throw .invalidArgument)
  else if !(← g.contains n) then S3M.lift (.throw .keyError)
  else if ← g.handle.isSubGroup (pyLstrip n) then (g.handle.child (pyLstrip n)).remove
  else do
    match ← g.item n with
    | .inr o => o.removeDataset L (Ty.cast o.obj.info.dtype)
    -- `self[name]` asks `is_sub_group` again; `Group` has no `_impl`
    | .inl _ => S3M.lift (.throw .attributeError)

end S3PyGroup

end Z5
