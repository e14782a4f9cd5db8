import Verif.Spec.Steps
import Verif.Spec.FileStore

/-!
# Vocabulary for processes that work on the same container (C76)
-/

namespace Z5

/-- A call that has to do with attributes or metadata -/
inductive Call where
  /-- set or remove attributes -/
  | change (t : Target) (op : AttrOp)
  /-- read the attributes -/
  | read (t : Target)
  /-- `openDataset(root, key)` -/
  | openDataset (root : GroupHandle) (key : Path)
  /-- `createDataset(root, key, ...)` -/
  | createDataset (root : GroupHandle) (key : Path) (a : CreateArgs)
  /-- `createGroup(root, key, ...)` -/
  | createGroup (root : GroupHandle) (key : Path) (format : Int)

/-- What a call returns -/
inductive Answer where
  | done
  | attributes (j : Json)
  | dataset (ds : DatasetObj)

namespace Call

/-- the call, if nobody else works on the container -/
def alone : Call → FsM Answer
  | change t op => do t.change op; return .done
  | read t => do return .attributes (← t.read)
  | openDataset root key => do return .dataset (← root.openDataset key)
  | createDataset root key a => do return .dataset (← root.createDataset key a)
  | createGroup root key f => do root.createGroup key f; return .done

/-- the call as it is made, one access to the file system after the other -/
def steps (D : Disk) : Call → FsProg Answer
  | change t op => do t.steps D op; return .done
  | read (.group g) | read (.file g) => do return .attributes (← Stepwise.readGroupAttributes g .null)
  | read (.dataset d) => do return .attributes (← Stepwise.readDatasetAttributes d .null)
  | openDataset root key => do return .dataset (← Stepwise.openDataset root key)
  | createDataset root key a => do return .dataset (← Stepwise.createDataset D root key a)
  | createGroup root key f => do Stepwise.createGroup D root key f; return .done

/-- the node the call is about -/
def node : Call → Path
  | change t _ | read t => t.path
  | openDataset root key | createDataset root key _ | createGroup root key _ => root.path ++ key

/-- the group the call goes through -/
def via : Call → Path
  | change t _ | read t => t.path
  | openDataset root _ | createDataset root _ _ | createGroup root _ _ => root.path

def creates : Call → Bool
  | createDataset .. | createGroup .. => true
  | _ => false

def modifies : Call → Bool
  | read .. | openDataset .. => false
  | _ => true

end Call

/-- The names of documents with metadata or attributes -/
def documentNames : List String := [".zgroup", ".zarray", ".zattrs", "zarr.json", "attributes.json"]

namespace Call

/-- What the call may write: documents of its node, and the directory of a new node -/
def writes (c : Call) (q : Path) : Prop :=
  c.modifies = true ∧ ((c.creates = true ∧ q = c.node) ∨ ∃ name ∈ documentNames, q = c.node ++ [name])

/-- What the call may look at: the directories and documents of its node and of the group it goes through -/
def touches (c : Call) (q : Path) : Prop :=
  ∃ p, (p = c.node ∨ p = c.via) ∧ (q = p ∨ ∃ name ∈ documentNames, q = p ++ [name])

/-- What is created is created in an existing group. -/
def Ready (c : Call) (σ : Fs) : Prop := c.creates = true → ∀ q, q <+: c.node → q ≠ c.node → σ q = some .dir

/-- Neither call writes what the other one looks at. -/
def Apart (c c' : Call) : Prop := ∀ q, ¬ (c.writes q ∧ c'.touches q) ∧ ¬ (c'.writes q ∧ c.touches q)

end Call

/-- `try`: an exception becomes a result. -/
def FsM.attempt {α : Type} (m : FsM α) : FsM (Res α) := fun σ =>
  match m σ with
  | (.ub, σ) => (.ub, σ)
  | (r, σ) => (.ok r, σ)

def FsProg.attempt {α : Type} : FsProg α → FsProg (Res α)
  | .ret .ub => .ret .ub
  | .ret r => .ret (.ok r)
  | .act f c => .act f fun σ => (c σ).attempt

/-- One call after the other, each of which may throw, if nobody else works on the container -/
def inTurn : List Call → FsM (List (Res Answer))
  | [] => return []
  | c :: cs => do
    let r ← c.alone.attempt
    return r :: (← inTurn cs)

/-- A process that makes one call after the other -/
def process (D : Disk) : List Call → FsProg (List (Res Answer))
  | [] => return []
  | c :: cs => do
    let r ← (c.steps D).attempt
    return r :: (← process D cs)

/-! ### together with tasks that read and write chunks -/

/-- with another type of results -/
def FsProg.as {α β : Type} (f : α → β) : FsProg α → FsProg β
  | .ret (.ok a) => .ret (.ok (f a))
  | .ret (.throw e) => .ret (.throw e)
  | .ret .ub => .ret .ub
  | .act g c => .act g fun σ => (c σ).as f

/-- The tasks `ts` and the processes `us` at the same time; number `ts.length + i` is process `i`. -/
def together {α β : Type} (ts : List (FsProg α)) (us : List (FsProg β)) : List (FsProg (α ⊕ β)) :=
  ts.map (·.as .inl) ++ us.map (·.as .inr)

/-- The file of a chunk or shard of the dataset in `p`, or a directory on the way to one -/
def OnWay (p : Path) (K : Key → Prop) (q : Path) : Prop := ∃ k, K k ∧ p <+: q ∧ q ≠ p ∧ q <+: chunkFile p k

end Z5
