import Verif.Model.Factory

/-!
# Files and groups of the Python module

`src/python/module/z5py/file.py` and `group.py`.  Python exceptions are those of `Err`.
-/

namespace Z5

/-- A Python `Group` or `File`: its handle and `_zarr_format` (group.py:39-46).  The dimension separator is
    left to the arguments of `createDataset`. -/
structure PyGroup where
  handle : GroupHandle
  zarrFormat : Int
  deriving DecidableEq, Repr

/-- group.py:35-37 `file_modes` -/
def pyFileModes : List (String × FileMode) :=
  [("a", .a), ("r", .r), ("r+", .rp), ("w", .w), ("w-", .wm), ("x", .wm)]

/-- `os.path.splitext(path)[1].lower()`, given what follows the last `/` of the path: the text from the last
    dot on, if something other than dots comes before it. -/
def pyExtension (base : List Char) : List Char :=
  let tail := (base.reverse.takeWhile (fun c => !decide (c = '.'))).reverse
  let head := base.take (base.length - tail.length)
  if head.dropLast.any (fun c => !decide (c = '.')) then '.' :: tail.map Char.toLower else []

/-- file.py:66-93 `File.infer_format`; it is never `None`.  `base` is what follows the last `/` of the path
    as it was given (empty for `"x.zarr/"`). -/
def pyInferFormat (path : Path) (base : String) : FsM Bool := do
  let ext := pyExtension base.toList
  if ext = ".zarr".toList ∨ ext = ".zr".toList then return true
  else if ext = ".n5".toList then return false
  else
    let a ← FsM.exist (path ++ [".zgroup"])
    let b ← FsM.exist (path ++ [".zarray"])
    let c ← FsM.exist (path ++ ["zarr.json"])
    return a || b || c

/-- file.py:145-149: `version not in (2, 3)`, for values of JSON -/
def pyZarrVersion : Json → Res Int
  | .int i => if i = 2 ∨ i = 3 then .ok i else .throw .runtimeError
  | .float d => if d = .ofInt 2 then .ok 2 else if d = .ofInt 3 then .ok 3 else .throw .runtimeError
  | _ => .throw .runtimeError

/-- file.py:151-153: `int(version[0])`; digits other than 0-9, and versions that are not strings, are
    taken as errors. -/
def pyN5Version : Json → Res Unit
  | .null => .ok ()
  | .str s => match s.toList with
    | [] => .throw .outOfRange
    | c :: _ => if c.isDigit then (if c.toNat - 48 > 4 then .throw .runtimeError else .ok ())
        else .throw .invalidArgument
  | _ => .throw .typeError

/-- file.py:141-153 `File._check_version`: the new `_zarr_format`.  `None` has no method `get`. -/
def PyGroup.checkVersion (g : PyGroup) : FsM PyGroup := do
  let metadata ← g.handle.readMetadata
  if ← g.handle.isZarr then
    match metadata.find "zarr_format" with
    | none => FsM.lift (.throw .keyError)
    | some v => return { g with zarrFormat := ← FsM.lift (pyZarrVersion v) }
  else
    match metadata with
    | .obj l => match assocGet l "n5" with
      | none => return g
      | some v => do
        FsM.lift (pyN5Version v)
        return g
    | _ => FsM.lift (.throw .attributeError)

/-- file.py:95-134 `File.__init__` -/
def pyFile (path : Path) (base : String) (mode : FileMode) (useZarr : Option Bool) (zarrFormat : Int := 2) :
    FsM PyGroup := do
  let isZarr ← pyInferFormat path base
  if useZarr.any (· != isZarr) then FsM.lift (.throw .runtimeError)
  else
    let g : GroupHandle := ⟨path, mode⟩
    if (← FsM.exist path) && mode.shouldTruncate then g.remove
    if ← FsM.exist path then
      if mode.mustNotExist then FsM.lift (.throw .osError)
      else PyGroup.checkVersion ⟨g, zarrFormat⟩
    else if !mode.canCreate then FsM.lift (.throw .osError)
    else
      g.createFile isZarr zarrFormat
      return ⟨g, zarrFormat⟩

/-- file.py:95-134 `File.__init__` with the mode as text: `self.file_modes[mode]` (line 117) comes after the check of the
    format. -/
def pyFileNamed (path : Path) (base : String) (mode : String) (useZarr : Option Bool) (zarrFormat : Int := 2) :
    FsM PyGroup :=
  match pyFileModes.lookup mode with
  | some m => pyFile path base m useZarr zarrFormat
  | none => do
    let isZarr ← pyInferFormat path base
    if useZarr.any (· != isZarr) then FsM.lift (.throw .runtimeError) else FsM.lift (.throw .keyError)

/-- A name given to a method of a Python group: without leading slashes (`lstrip`), these are its parts.
    Empty parts and `.` and `..` are not modelled. -/
structure PyName where
  /-- it starts with a slash -/
  absolute : Bool := false
  parts : Path
  deriving DecidableEq, Repr

/-- `group.path() / key` in the constructor of a handle, filesystem/handle.hxx:84-87, 198-204: an absolute
    path on the right replaces the one on the left. -/
def PyName.under (n : PyName) (base : Path) : Path := if n.absolute then n.parts else base ++ n.parts

/-- factory.hxx:211-228 `createGroup` with a name as above -/
def GroupHandle.createGroupAt (root : GroupHandle) (n : PyName) (zarrFormat : Int) : FsM Unit := do
  let isZarr ← root.isZarr
  GroupHandle.create ⟨n.under root.path, root.mode⟩
  writeGroupMetadata (n.under root.path) isZarr zarrFormat

/-- factory.hxx:122-160 `createDataset` with a name as above -/
def GroupHandle.createDatasetAt (root : GroupHandle) (n : PyName) (a : CreateArgs) : FsM DatasetObj := do
  let m ← FsM.lift (a.toMeta (← root.isZarr))
  DatasetHandle.createDataset ⟨n.under root.path, root.mode, a.delimiter, a.zarrFormat, a.encoding, none⟩ m

namespace PyGroup

/-- group.py:63-64 `__contains__` -/
def contains (g : PyGroup) (n : PyName) : FsM Bool := g.handle.has n.parts

/-- group.py:151-169 `create_group` -/
def createGroup (g : PyGroup) (n : PyName) : FsM PyGroup := do
  if !g.handle.mode.canWrite then FsM.lift (.throw .invalidArgument)
  else if ← g.contains n then FsM.lift (.throw .keyError)
  else
    g.handle.createGroupAt n g.zarrFormat
    return ⟨⟨n.under g.handle.path, g.handle.mode⟩, g.zarrFormat⟩

/-- group.py:171-196 `require_group`, for a name without leading slash -/
def requireGroup (g : PyGroup) (key : Path) : FsM PyGroup := do
  if ← g.contains { parts := key } then
    if !(← g.handle.isSubGroup key) then FsM.lift (.throw .typeError)
    else return ⟨g.handle.group key, g.zarrFormat⟩
  else if !g.handle.mode.canWrite then FsM.lift (.throw .invalidArgument)
  else
    g.handle.createGroup key g.zarrFormat
    return ⟨g.handle.group key, g.zarrFormat⟩

/-- group.py:243-246: `for part in parts[:-1]: group = group.require_group(part)` -/
def requireGroups (g : PyGroup) : List String → FsM PyGroup
  | [] => return g
  | n :: ns => do (← g.requireGroup [n]).requireGroups ns

/-- dataset.py:285-290: chunks are limited to the shape. -/
def limitChunks (chunks shape : List Nat) : List Nat := List.zipWith min chunks shape

/-- group.py:77-96 `__getitem__` -/
def getItem (g : PyGroup) (n : PyName) : FsM (PyGroup ⊕ DatasetObj) := do
  if !(← g.contains n) then FsM.lift (.throw .keyError)
  else if ← g.handle.isSubGroup n.parts then return .inl ⟨g.handle.group n.parts, g.zarrFormat⟩
  else return .inr (← g.handle.openDataset n.parts)

end PyGroup

end Z5
