import Verif.Model.PyDataset

/-!
# Objects of the Python module: names, parents and pickling

`file.py`, `group.py` and `dataset.py`: what the objects know besides their handles, `__reduce__` and the functions that
make objects again (`_unpickle_file`, `_unpickle_group`, `_unpickle_dataset`).  `S3File` is not modelled.
-/

namespace Z5

/-- util/file_mode.hxx:36-45 `printMode`; `mode()` in Python (lib/util.cxx:22) -/
def FileMode.printMode : FileMode → String
  | .r => "r"
  | .rp => "r+"
  | .w => "w"
  | .wm => "w-"
  | .a => "a"

/-- The text of a name, with the parts joined by slashes -/
def joinParts : Path → List Char
  | [] => []
  | [p] => p.toList
  | p :: ps => p.toList ++ '/' :: joinParts ps

/-- `name.lstrip('/')` -/
def PyName.bare (n : PyName) : List Char := joinParts n.parts

/-- `name`, as it was given; more than one leading slash is not modelled -/
def PyName.text (n : PyName) : List Char := if n.absolute then '/' :: n.bare else n.bare

/-- The objects, group.py:39-46, dataset.py:84-90, with their parents.  The root is its own parent (file.py:120), which is
    `file` here.  `separator` is `_dimension_separator`. -/
inductive PyObj where
  | file (g : PyGroup) (separator : String)
  | group (parent : PyObj) (g : PyGroup) (name : List Char) (separator : String)
  | dataset (parent : PyObj) (ds : DatasetObj) (name : List Char) (threads : Nat)

namespace PyObj

/-- `_name`; the root has the name `""` (file.py:120) -/
def name : PyObj → List Char
  | file .. => []
  | group _ _ name _ => name
  | dataset _ _ name _ => name

/-- group.py:127-136 and dataset.py:443-452 `file`: up the parents, to the root; its handle and its separator -/
def root : PyObj → PyGroup × String
  | file g s => (g, s)
  | group p .. => p.root
  | dataset p .. => p.root

/-- The group of a file or group; a dataset has none. -/
def asGroup : PyObj → Option (PyGroup × String)
  | file g s => some (g, s)
  | group _ g _ s => some (g, s)
  | dataset .. => none

/-- group.py:77-96 `__getitem__`: the new group has the name as it was given, the new dataset the one without leading
    slashes.  For a dataset it is `Dataset.__getitem__`, and a text as index is a `TypeError` (shape_utils.py:147-148). -/
def getItem (o : PyObj) (n : PyName) : FsM PyObj :=
  match o.asGroup with
  | none => FsM.lift (.throw .typeError)
  | some (g, s) => do
    match ← g.getItem n with
    | .inl g' => return .group o g' (o.name ++ '/' :: n.text) s
    | .inr d => return .dataset o d (o.name ++ '/' :: n.bare) 1

/-- group.py:151-169 `create_group`; datasets do not have it (`AttributeError`) -/
def createGroup (o : PyObj) (n : PyName) : FsM PyObj :=
  match o.asGroup with
  | none => FsM.lift (.throw .attributeError)
  | some (g, s) => do return .group o (← g.createGroup n) (o.name ++ '/' :: n.text) s

/-- group.py:171-196 `require_group`, for a name without leading slash -/
def requireGroup (o : PyObj) (key : Path) : FsM PyObj :=
  match o.asGroup with
  | none => FsM.lift (.throw .attributeError)
  | some (g, s) => do return .group o (← g.requireGroup key) (o.name ++ '/' :: joinParts key) s

/-- group.py:243-246: the groups on the way to a dataset, `group = group.require_group(part)`, which are the parents of the
    new one -/
def requireGroups (o : PyObj) : List String → FsM PyObj
  | [] => return o
  | n :: ns => do (← o.requireGroup [n]).requireGroups ns

/-- group.py:198-259 `create_dataset` and dataset.py:337-338: the object for the new dataset -/
def createDataset (o : PyObj) (n : PyName) (a : PyCreateArgs) (threads : Nat) : FsM PyObj :=
  match o.asGroup with
  | none => FsM.lift (.throw .attributeError)
  | some (g, _) => do
    if !g.handle.mode.canWrite then FsM.lift (.throw .invalidArgument)
    else if ← g.contains n then FsM.lift (.throw .keyError)
    else if n.parts.length > 1 then
      let o' ← o.requireGroups n.parts.dropLast
      -- the method is called again, with the last part
      let last : PyName := { parts := n.parts.getLast?.toList }
      match o'.asGroup with
      | none => FsM.lift (.throw .attributeError)
      | some (g', _) =>
        if !g'.handle.mode.canWrite then FsM.lift (.throw .invalidArgument)
        else if ← g'.contains last then FsM.lift (.throw .keyError)
        else return .dataset o' (← g'.newDatasetFull last a) (o'.name ++ '/' :: last.text) threads
    else return .dataset o (← g.newDatasetFull n a) (o.name ++ '/' :: n.text) threads

/-- group.py:261-287 `require_dataset` and dataset.py:199-246, for a name without leading slash -/
def requireDataset (o : PyObj) (key : Path) (a : PyCreateArgs) (threads : Nat) : FsM PyObj :=
  match o.asGroup with
  | none => FsM.lift (.throw .attributeError)
  | some (g, _) => do
    return .dataset o (← g.requireDataset key a) (o.name ++ '/' :: joinParts key) threads

end PyObj

/-- file.py:136-139 `File.__reduce__`: the arguments for `_unpickle_file` -/
structure PickledFile where
  path : Path
  mode : String
  separator : String
  deriving DecidableEq, Repr

/-- What `pickle` stores: file.py:136-139, group.py:47-49, dataset.py:92-96.  The file of a group or a dataset is pickled
    with it. -/
inductive Pickled where
  | file (f : PickledFile)
  | group (f : PickledFile) (name : List Char)
  | dataset (f : PickledFile) (name : List Char) (threads : Nat)
  deriving DecidableEq, Repr

/-- file.py:136-139 `File.__reduce__` -/
def pickleFile (f : PyGroup × String) : PickledFile := ⟨f.1.handle.path, f.1.handle.mode.printMode, f.2⟩

/-- file.py:136-139, group.py:47-49, dataset.py:92-96 `__reduce__` -/
def PyObj.pickle (o : PyObj) : Pickled :=
  match o with
  | .file .. => .file (pickleFile o.root)
  | .group _ _ name _ => .group (pickleFile o.root) name
  | .dataset _ _ name threads => .dataset (pickleFile o.root) name threads

/-- file.py:36-41 of `_unpickle_file`: `json.loads(...).get('zarr_format', 2)`, with 2 after an exception.  A value that is
    not one of the formats stays as it is in Python; here it is 2. -/
def pyFormatOr2 (g : GroupHandle) : FsM Int := fun σ =>
  match g.readMetadata σ with
  | (.ok j, σ') => (match (j.find "zarr_format").map pyZarrVersion with
    | some (.ok i) => .ok i
    | _ => .ok 2, σ')
  | (.throw _, σ') => (.ok 2, σ')
  | (.ub, σ') => (.ub, σ')

/-- file.py:31-44 `_unpickle_file` -/
def unpickleFile (f : PickledFile) : FsM PyObj :=
  match pyFileModes.lookup f.mode with
  | none => FsM.lift (.throw .keyError)
  | some m => do
    let h : GroupHandle := ⟨f.path, m⟩
    let format ← if ← h.isZarr then pyFormatOr2 h else pure 2
    return .file ⟨h, format⟩ f.separator

/-- `name.strip('/')` -/
def pyStrip (s : List Char) : List Char :=
  ((s.dropWhile (· == '/')).reverse.dropWhile (· == '/')).reverse

/-- `s.split('/')` -/
def pySplit : List Char → List (List Char)
  | [] => [[]]
  | c :: cs =>
    if c = '/' then [] :: pySplit cs
    else match pySplit cs with
      | [] => [[c]]
      | p :: ps => (c :: p) :: ps

/-- One component of a path as a name.  An empty one is appended to the path as a slash at its end, which leads to the same
    directory. -/
def partName (p : List Char) : PyName := { parts := if p = [] then [] else [String.ofList p] }

/-- dataset.py:22-33 of `_navigate`: `for part in rel.split('/'): obj = obj[part]` -/
def navigateParts (o : PyObj) : List (List Char) → FsM PyObj
  | [] => return o
  | p :: ps => do navigateParts (← o.getItem (partName p)) ps

/-- dataset.py:22-33 `_navigate` -/
def navigate (o : PyObj) (name : List Char) : FsM PyObj :=
  if pyStrip name = [] then return o else navigateParts o (pySplit (pyStrip name))

/-- `ds.n_threads = n_threads`; other objects get an attribute that is not used. -/
def PyObj.setThreads (threads : Nat) : PyObj → PyObj
  | .dataset p d n _ => .dataset p d n threads
  | o => o

/-- file.py:31-44, group.py:15-16, dataset.py:36-39: `pickle.loads` -/
def unpickle : Pickled → FsM PyObj
  | .file f => unpickleFile f
  | .group f name => do navigate (← unpickleFile f) name
  | .dataset f name threads => do return (← navigate (← unpickleFile f) name).setThreads threads

end Z5
