import Verif.Model.Fs

/-!
# Model of the handles of files, groups and datasets, and of the attribute functions
-/

namespace Z5

/-- util/file_mode.hxx:24-28 `FileMode::modes` -/
inductive FileMode where
  | r | rp | w | wm | a
  deriving DecidableEq, Repr

namespace FileMode

/-- util/file_mode.hxx:12-28: the numbers of the modes -/
def bits : FileMode → Nat
  | r => 0
  | rp => 1
  | w => 1 ||| 8 ||| 2
  | wm => 1 ||| 2 ||| 4
  | a => 1 ||| 2

/-- util/file_mode.hxx:33-36 -/
def canWrite (m : FileMode) : Bool := m.bits &&& 1 != 0
def canCreate (m : FileMode) : Bool := m.bits &&& 2 != 0
def mustNotExist (m : FileMode) : Bool := m.bits &&& 4 != 0
def shouldTruncate (m : FileMode) : Bool := m.bits &&& 8 != 0

end FileMode

/-- A handle of a file or group: filesystem/handle.hxx:78-190 -/
structure GroupHandle where
  path : Path
  mode : FileMode
  deriving DecidableEq, Repr

/-- A handle of a dataset: handle.hxx:114-131, filesystem/handle.hxx:193-265.  `cache` is
    `isZarrCache_`; that `isZarr` fills it on the first use is not modelled (it stays unknown until
    `setIsZarr`). -/
structure DatasetHandle where
  path : Path
  mode : FileMode
  delimiter : String
  zarrFormat : Int
  encoding : String
  cache : Option Bool
  deriving DecidableEq, Repr

/-- filesystem/handle.hxx:84-87: a group in a group -/
def GroupHandle.group (g : GroupHandle) (key : Path) : GroupHandle := ⟨g.path ++ key, g.mode⟩

/-- filesystem/handle.hxx:198-204 -/
def GroupHandle.dataset (g : GroupHandle) (key : Path) (delimiter : String := ".")
    (zarrFormat : Int := 2) (encoding : String := "default") : DatasetHandle :=
  ⟨g.path ++ key, g.mode, delimiter, zarrFormat, encoding, none⟩

/-- filesystem/handle.hxx:42-48 `isZarrGroup` -/
def GroupHandle.isZarr (g : GroupHandle) : FsM Bool := do
  if !(← FsM.exist g.path) then FsM.lift (.throw .runtimeError)
  else
    let v2 ← FsM.exist (g.path ++ [".zgroup"])
    let v3 ← FsM.exist (g.path ++ ["zarr.json"])
    return v2 || v3

/-- filesystem/handle.hxx:34-40 `isZarrDataset` and 216-223 `isZarr` -/
def DatasetHandle.isZarr (d : DatasetHandle) : FsM Bool := do
  match d.cache with
  | some b => return b
  | none =>
    if !(← FsM.exist d.path) then FsM.lift (.throw .runtimeError)
    else
      let v2 ← FsM.exist (d.path ++ [".zarray"])
      let v3 ← FsM.exist (d.path ++ ["zarr.json"])
      return v2 || v3

/-- filesystem/handle.hxx:59-62 `elementExists`, 128-130 `in` -/
def GroupHandle.has (g : GroupHandle) (key : Path) : FsM Bool := FsM.isDir (g.path ++ key)

/-- filesystem/attributes.hxx:33-42 `JsonIO::read` -/
def jsonRead (base : Path) (name : Path) : FsM (Option Json) := do
  if !(← FsM.exist (base ++ name)) then return none
  else return some (← FsM.parse (base ++ name))

/-- `for(auto jIt = j.begin(); jIt != j.end(); ++jIt) out[jIt.key()] = jIt.value();` -/
def setAll : Json → List (String × Json) → Res Json
  | out, [] => .ok out
  | out, (k, v) :: l => do setAll (← out.set k v) l

/-- the merge loops generic/attributes.hxx:39-41 and 86-88 -/
def mergeAttributes (out j : Json) : Res Json := do setAll out (← j.items)

namespace Generic

/-- generic/attributes.hxx:59-61 `attributesName` -/
def attributesName (isZarr : Bool) : String := if isZarr then ".zattrs" else "attributes.json"

/-- generic/attributes.hxx:24-32 `readV3Attributes` -/
def readV3Attributes (base : Path) (j : Json) : FsM Json := do
  match ← jsonRead base ["zarr.json"] with
  | none => return j
  | some full => return (full.find "attributes").getD j

/-- generic/attributes.hxx:35-44 `writeV3Attributes` -/
def writeV3Attributes (base : Path) (j : Json) : FsM Unit := do
  let full := (← jsonRead base ["zarr.json"]).getD (.obj [])
  let attrs ← FsM.lift (mergeAttributes ((full.find "attributes").getD (.obj [])) j)
  let full ← FsM.lift (full.set "attributes" attrs)
  FsM.writeDoc (base ++ ["zarr.json"]) full

/-- generic/attributes.hxx:47-56 `removeV3Attribute` -/
def removeV3Attribute (base : Path) (key : String) : FsM Unit := do
  match ← jsonRead base ["zarr.json"] with
  | none => return ()
  | some full =>
    match full.find "attributes" with
    | none => FsM.writeDoc (base ++ ["zarr.json"]) full
    | some attrs =>
      let attrs ← FsM.lift (attrs.erase key)
      let full ← FsM.lift (full.set "attributes" attrs)
      FsM.writeDoc (base ++ ["zarr.json"]) full

/-- generic/attributes.hxx:67-74 `readAttributes` -/
def readAttributes (base : Path) (isZarr : Bool) (j : Json) : FsM Json := do
  if isZarr && (← FsM.exist (base ++ ["zarr.json"])) then readV3Attributes base j
  else return (← jsonRead base [attributesName isZarr]).getD j

/-- generic/attributes.hxx:77-90 `writeAttributes` -/
def writeAttributes (base : Path) (isZarr : Bool) (j : Json) : FsM Unit := do
  if isZarr && (← FsM.exist (base ++ ["zarr.json"])) then writeV3Attributes base j
  else
    let out := (← jsonRead base [attributesName isZarr]).getD (.obj [])
    let out ← FsM.lift (mergeAttributes out j)
    FsM.writeDoc (base ++ [attributesName isZarr]) out

/-- generic/attributes.hxx:93-105 `removeAttribute` -/
def removeAttribute (base : Path) (isZarr : Bool) (key : String) : FsM Unit := do
  if isZarr && (← FsM.exist (base ++ ["zarr.json"])) then removeV3Attribute base key
  else
    match ← jsonRead base [attributesName isZarr] with
    | none => return ()
    | some out =>
      let out ← FsM.lift (out.erase key)
      FsM.writeDoc (base ++ [attributesName isZarr]) out

end Generic

/-- attributes.hxx:34-35, 45-46, 55-56: the metadata of an N5 dataset -/
def n5DatasetKeys : List String :=
  ["dimensions", "blockSize", "dataType", "compressionType", "compression"]

/-- handle.hxx:240-251 `hasAllN5DatasetAttributes`; the loop asks for keys, which only objects have. -/
def hasAllN5DatasetAttributes (j : Json) : Res Bool := do
  let items ← j.items
  return (items.filter fun p => n5DatasetKeys.contains p.1).length == n5DatasetKeys.length - 1

/-- generic/attributes.hxx:109-134 `isSubGroup` (on the file system), filesystem/attributes.hxx:104-108 -/
def GroupHandle.isSubGroup (g : GroupHandle) (key : Path) : FsM Bool := do
  let isZarr ← g.isZarr
  if !(← FsM.exist (g.path ++ key)) then return false
  else if isZarr then
    if ← FsM.exist (g.path ++ (key ++ ["zarr.json"])) then
      match ← jsonRead g.path (key ++ ["zarr.json"]) with
      | some j => return decide ((← FsM.lift (j.valueStr "node_type" "group")) = "group")
      | none => FsM.lift (.throw .typeError)
    else FsM.exist (g.path ++ (key ++ [".zgroup"]))
  else
    match ← jsonRead g.path (key ++ ["attributes.json"]) with
    | none => return true
    | some j => return !(← FsM.lift (hasAllN5DatasetAttributes j))

/-- attributes.hxx:17-22 `protectN5FileAttributes` -/
def protectN5File (j : Json) : Res Unit :=
  if (j.find "n5").isSome then .throw .runtimeError else .ok ()

/-- attributes.hxx:33-41 `protectN5DatasetAttributes` -/
def protectN5Dataset (j : Json) : Res Unit :=
  if n5DatasetKeys.any fun k => (j.find k).isSome then .throw .runtimeError else .ok ()

/-- attributes.hxx:53-60 `hideN5DatasetAttributes` -/
def hideN5Dataset (j : Json) : Res Json := n5DatasetKeys.foldlM Json.erase j

/-- attributes.hxx:63-78: attributes of a group or file; `j` is what the caller passes. -/
def GroupHandle.readAttributes (g : GroupHandle) (j : Json) : FsM Json := do
  Generic.readAttributes g.path (← g.isZarr) j

/-- attributes.hxx:81-102 -/
def GroupHandle.writeAttributes (g : GroupHandle) (j : Json) : FsM Unit := do
  if !g.mode.canWrite then FsM.lift (.throw .invalidArgument)
  else Generic.writeAttributes g.path (← g.isZarr) j

/-- attributes.hxx:105-126 -/
def GroupHandle.removeAttribute (g : GroupHandle) (key : String) : FsM Unit := do
  if !g.mode.canWrite then FsM.lift (.throw .invalidArgument)
  else Generic.removeAttribute g.path (← g.isZarr) key

/-- attributes.hxx:130-155: on the handle of a file -/
def GroupHandle.writeFileAttributes (g : GroupHandle) (j : Json) : FsM Unit := do
  if !g.mode.canWrite then FsM.lift (.throw .invalidArgument)
  else do
    if !(← g.isZarr) then FsM.lift (protectN5File j)
    Generic.writeAttributes g.path (← g.isZarr) j

/-- attributes.hxx:24-29, 158-183: on the handle of a file -/
def GroupHandle.removeFileAttribute (g : GroupHandle) (key : String) : FsM Unit := do
  if !g.mode.canWrite then FsM.lift (.throw .invalidArgument)
  else do
    if !(← g.isZarr) then
      if key = "n5" then FsM.lift (.throw .runtimeError)
    Generic.removeAttribute g.path (← g.isZarr) key

/-- attributes.hxx:186-211 -/
def DatasetHandle.readAttributes (d : DatasetHandle) (j : Json) : FsM Json := do
  let j ← Generic.readAttributes d.path (← d.isZarr) j
  if !(← d.isZarr) then FsM.lift (hideN5Dataset j)
  else return j

/-- attributes.hxx:214-240 -/
def DatasetHandle.writeAttributes (d : DatasetHandle) (j : Json) : FsM Unit := do
  if !d.mode.canWrite then FsM.lift (.throw .invalidArgument)
  else do
    if !(← d.isZarr) then FsM.lift (protectN5Dataset j)
    Generic.writeAttributes d.path (← d.isZarr) j

/-- attributes.hxx:44-50, 243-269 -/
def DatasetHandle.removeAttribute (d : DatasetHandle) (key : String) : FsM Unit := do
  if !d.mode.canWrite then FsM.lift (.throw .invalidArgument)
  else do
    if !(← d.isZarr) then
      if n5DatasetKeys.contains key then FsM.lift (.throw .runtimeError)
    Generic.removeAttribute d.path (← d.isZarr) key

end Z5
