import Verif.Spec.Files
import Verif.Model.PyDataset

/-!
# Operations on containers, as a list
-/

namespace Z5

/-- What can be done with a container apart from reading and writing array data -/
inductive FileOp where
  /-- write or remove attributes -/
  | change (t : Target) (op : AttrOp)
  | createFile (g : GroupHandle) (isZarr : Bool) (zarrFormat : Int)
  | createGroup (g : GroupHandle) (key : Path) (zarrFormat : Int)
  | createDataset (g : GroupHandle) (key : Path) (a : CreateArgs)
  | removeGroup (g : GroupHandle)
  | removeDataset (d : DatasetHandle)
  /-- Python: `File(...)`, `create_group`, `require_group`, `create_dataset`, `require_dataset` -/
  | pyFile (path : Path) (base : String) (mode : FileMode) (useZarr : Option Bool) (zarrFormat : Int)
  | pyCreateGroup (g : PyGroup) (n : PyName)
  | pyRequireGroup (g : PyGroup) (key : Path)
  | pyCreateDataset (g : PyGroup) (n : PyName) (a : PyCreateArgs)
  | pyRequireDataset (g : PyGroup) (key : Path) (a : PyCreateArgs)

namespace FileOp

/-- The operation; its value is dropped. -/
def run : FileOp → FsM Unit
  | change t op => t.change op
  | createFile g z f => g.createFile z f
  | createGroup g k f => g.createGroup k f
  | createDataset g k a => do let _ ← g.createDataset k a
  | removeGroup g => g.remove
  | removeDataset d => d.remove
  | pyFile p b m u f => do let _ ← Z5.pyFile p b m u f
  | pyCreateGroup g n => do let _ ← g.createGroup n
  | pyRequireGroup g k => do let _ ← g.requireGroup k
  | pyCreateDataset g n a => do let _ ← g.createDatasetFull n a
  | pyRequireDataset g k a => do let _ ← g.requireDataset k a

/-- The path of the handle that is used -/
def path : FileOp → Path
  | change t _ => t.path
  | createFile g _ _ | createGroup g _ _ | createDataset g _ _ | removeGroup g => g.path
  | removeDataset d => d.path
  | pyFile p _ _ _ _ => p
  | pyCreateGroup g _ | pyRequireGroup g _ | pyCreateDataset g _ _ | pyRequireDataset g _ _ => g.handle.path

/-- The mode of the handle that is used -/
def mode : FileOp → FileMode
  | change t _ => t.mode
  | createFile g _ _ | createGroup g _ _ | createDataset g _ _ | removeGroup g => g.mode
  | removeDataset d => d.mode
  | pyFile _ _ m _ _ => m
  | pyCreateGroup g _ | pyRequireGroup g _ | pyCreateDataset g _ _ | pyRequireDataset g _ _ => g.handle.mode

/-- A Python name that starts with a slash is given. -/
def absolute : FileOp → Bool
  | pyCreateGroup _ n | pyCreateDataset _ n _ => n.absolute
  | _ => false

/-- What succeeds if there is nothing to be done. -/
def opens : FileOp → Bool
  | pyFile _ _ _ _ _ | pyRequireGroup _ _ | pyRequireDataset _ _ _ => true
  | _ => false

/-- The file system after a sequence of operations, each of which may fail. -/
def runs : List FileOp → Fs → Fs
  | [], σ => σ
  | op :: ops, σ => runs ops (op.run σ).2

end FileOp

end Z5
