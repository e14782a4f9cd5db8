import Verif.Model.FileStore
import Verif.Model.Factory

/-!
# Attributes and metadata, step by step

The functions that change attributes, and those that create and remove files, groups and datasets, as programs that
change the file system in several steps, so that a crash between two of them can be described.  `Props/Steps.lean` shows
that without a crash they are the functions of `Model/Attributes.lean` and `Model/Factory.lean`.
-/

namespace Z5

namespace FsProg

protected def bind {α β : Type} : FsProg α → (α → FsProg β) → FsProg β
  | .ret (.ok a), g => g a
  | .ret (.throw e), _ => .ret (.throw e)
  | .ret .ub, _ => .ret .ub
  | .act f c, g => .act f fun σ => (c σ).bind g

instance : Monad FsProg where
  pure a := .ret (.ok a)
  bind := FsProg.bind

/-- a computation that does not look at the file system -/
def lift {α : Type} (r : Res α) : FsProg α := .ret r

/-- A computation that only looks at the file system; it counts as one step. -/
def look {α : Type} (m : FsM α) : FsProg α := .act id fun σ => .ret (m σ).1

end FsProg

/-- What is not determined by the code: which parts of a text have reached the file while it is written, and in which order
    `fs::remove_all` removes what it finds. -/
structure Disk where
  /-- The contents the file has between its truncation and the complete text of the document.  They are no JSON texts
      (C80). -/
  torn : Json → List Bytes
  order : Fs → Path → List Path

namespace Stepwise

/-- the contents of a file one after the other -/
def contents {α : Type} (p : Path) : List Entry → FsProg α → FsProg α
  | [], c => c
  | e :: es, c => .act (·.set p (some e)) fun _ => contents p es c

/-- filesystem/attributes.hxx:45-56: `std::ofstream file(path)` truncates the file; then the text reaches the file. -/
def writeDoc (D : Disk) (p : Path) (j : Json) : FsProg Unit :=
  .act (fun σ => if isDirectory (σ p.dropLast) && !isDirectory (σ p) then σ.set p (some (.file [])) else σ)
    fun σ => if isDirectory (σ p.dropLast) && !isDirectory (σ p) then
        contents p ((D.torn j).map .file ++ [.doc j]) (.ret (.ok ()))
      else .ret (.ok ())

/-- `fs::create_directories`: first it looks for what exists, then it makes one directory after the other. -/
def createDirectories (p : Path) : FsProg Unit :=
  .act id fun σ =>
    if (List.range (p.length + 1)).any fun n => isOther (σ (p.take n)) then .ret (.throw .filesystemError)
    else mkdirs (pathsTo p) (.ret (.ok ()))

/-- one entry after the other -/
def removeEach {α : Type} : List Path → FsProg α → FsProg α
  | [], c => c
  | q :: qs, c => .act (·.set q none) fun _ => removeEach qs c

/-- `fs::remove_all` -/
def removeAll (D : Disk) (p : Path) : FsProg Unit :=
  .act id fun σ => removeEach (D.order σ p) (.ret (.ok ()))

open FsProg (look lift)

/-- filesystem/attributes.hxx:33-42 `JsonIO::read` -/
def jsonRead (base : Path) (name : Path) : FsProg (Option Json) := do
  if !(← look (FsM.exist (base ++ name))) then return none
  else return some (← look (FsM.parse (base ++ name)))

/-- filesystem/handle.hxx:42-48 `isZarrGroup` -/
def groupIsZarr (g : GroupHandle) : FsProg Bool := do
  if !(← look (FsM.exist g.path)) then lift (.throw .runtimeError)
  else
    let v2 ← look (FsM.exist (g.path ++ [".zgroup"]))
    let v3 ← look (FsM.exist (g.path ++ ["zarr.json"]))
    return v2 || v3

/-- filesystem/handle.hxx:34-40 `isZarrDataset` and 216-223 `isZarr` -/
def datasetIsZarr (d : DatasetHandle) : FsProg Bool := do
  match d.cache with
  | some b => return b
  | none =>
    if !(← look (FsM.exist d.path)) then lift (.throw .runtimeError)
    else
      let v2 ← look (FsM.exist (d.path ++ [".zarray"]))
      let v3 ← look (FsM.exist (d.path ++ ["zarr.json"]))
      return v2 || v3

/-- generic/attributes.hxx:35-44 `writeV3Attributes` -/
def writeV3Attributes (D : Disk) (base : Path) (j : Json) : FsProg Unit := do
  let full := (← jsonRead base ["zarr.json"]).getD (.obj [])
  let attrs ← lift (mergeAttributes ((full.find "attributes").getD (.obj [])) j)
  let full ← lift (full.set "attributes" attrs)
  writeDoc D (base ++ ["zarr.json"]) full

/-- generic/attributes.hxx:47-56 `removeV3Attribute` -/
def removeV3Attribute (D : Disk) (base : Path) (key : String) : FsProg Unit := do
  match ← jsonRead base ["zarr.json"] with
  | none => return ()
  | some full =>
    match full.find "attributes" with
    | none => writeDoc D (base ++ ["zarr.json"]) full
    | some attrs =>
      let attrs ← lift (attrs.erase key)
      let full ← lift (full.set "attributes" attrs)
      writeDoc D (base ++ ["zarr.json"]) full

/-- generic/attributes.hxx:77-90 `writeAttributes` -/
def writeAttributes (D : Disk) (base : Path) (isZarr : Bool) (j : Json) : FsProg Unit := do
  if isZarr && (← look (FsM.exist (base ++ ["zarr.json"]))) then writeV3Attributes D base j
  else
    let out := (← jsonRead base [Generic.attributesName isZarr]).getD (.obj [])
    let out ← lift (mergeAttributes out j)
    writeDoc D (base ++ [Generic.attributesName isZarr]) out

/-- generic/attributes.hxx:93-105 `removeAttribute` -/
def removeAttribute (D : Disk) (base : Path) (isZarr : Bool) (key : String) : FsProg Unit := do
  if isZarr && (← look (FsM.exist (base ++ ["zarr.json"]))) then removeV3Attribute D base key
  else
    match ← jsonRead base [Generic.attributesName isZarr] with
    | none => return ()
    | some out =>
      let out ← lift (out.erase key)
      writeDoc D (base ++ [Generic.attributesName isZarr]) out

/-- attributes.hxx:81-102: attributes of a group -/
def writeGroupAttributes (D : Disk) (g : GroupHandle) (j : Json) : FsProg Unit := do
  if !g.mode.canWrite then lift (.throw .invalidArgument)
  else writeAttributes D g.path (← groupIsZarr g) j

/-- attributes.hxx:105-126 -/
def removeGroupAttribute (D : Disk) (g : GroupHandle) (key : String) : FsProg Unit := do
  if !g.mode.canWrite then lift (.throw .invalidArgument)
  else removeAttribute D g.path (← groupIsZarr g) key

/-- attributes.hxx:130-155: attributes of a file -/
def writeFileAttributes (D : Disk) (g : GroupHandle) (j : Json) : FsProg Unit := do
  if !g.mode.canWrite then lift (.throw .invalidArgument)
  else do
    if !(← groupIsZarr g) then lift (protectN5File j)
    writeAttributes D g.path (← groupIsZarr g) j

/-- attributes.hxx:24-29, 158-183 -/
def removeFileAttribute (D : Disk) (g : GroupHandle) (key : String) : FsProg Unit := do
  if !g.mode.canWrite then lift (.throw .invalidArgument)
  else do
    if !(← groupIsZarr g) then
      if key = "n5" then lift (.throw .runtimeError)
    removeAttribute D g.path (← groupIsZarr g) key

/-- attributes.hxx:214-240: attributes of a dataset -/
def writeDatasetAttributes (D : Disk) (d : DatasetHandle) (j : Json) : FsProg Unit := do
  if !d.mode.canWrite then lift (.throw .invalidArgument)
  else do
    if !(← datasetIsZarr d) then lift (protectN5Dataset j)
    writeAttributes D d.path (← datasetIsZarr d) j

/-- attributes.hxx:44-50, 243-269 -/
def removeDatasetAttribute (D : Disk) (d : DatasetHandle) (key : String) : FsProg Unit := do
  if !d.mode.canWrite then lift (.throw .invalidArgument)
  else do
    if !(← datasetIsZarr d) then
      if n5DatasetKeys.contains key then lift (.throw .runtimeError)
    removeAttribute D d.path (← datasetIsZarr d) key

/-- filesystem/handle.hxx:100-109 `Group::create` -/
def createGroupDir (g : GroupHandle) : FsProg Unit := do
  if g.mode = .r then lift (.throw .invalidArgument)
  else if ← look (FsM.exist g.path) then lift (.throw .invalidArgument)
  else createDirectories g.path

/-- filesystem/handle.hxx:153-162 `File::create` -/
def createFileDir (g : GroupHandle) : FsProg Unit := do
  if !g.mode.canCreate then lift (.throw .invalidArgument)
  else if ← look (FsM.exist g.path) then lift (.throw .invalidArgument)
  else createDirectories g.path

/-- filesystem/handle.hxx:230-241 `Dataset::create` -/
def createDatasetDir (d : DatasetHandle) : FsProg Unit := do
  if d.mode = .r then lift (.throw .invalidArgument)
  else if ← look (FsM.exist d.path) then lift (.throw .invalidArgument)
  else createDirectories d.path

/-- filesystem/handle.hxx:111-121, 164-173 `Group::remove`, `File::remove` -/
def removeGroup (D : Disk) (g : GroupHandle) : FsProg Unit := do
  if !g.mode.canWrite then lift (.throw .invalidArgument)
  else if !(← look (FsM.exist g.path)) then lift (.throw .invalidArgument)
  else removeAll D g.path

/-- filesystem/handle.hxx:243-252 `Dataset::remove` -/
def removeDataset (D : Disk) (d : DatasetHandle) : FsProg Unit := do
  if !d.mode.canWrite then lift (.throw .invalidArgument)
  else if !(← look (FsM.exist d.path)) then lift (.throw .invalidArgument)
  else removeAll D d.path

/-- generic/metadata.hxx:17-27 `writeV3GroupMetadata` -/
def writeV3GroupMetadata (D : Disk) (base : Path) : FsProg Unit := do
  let j := (← jsonRead base ["zarr.json"]).getD .null
  let j ← lift (j.set "zarr_format" (.int 3))
  let j ← lift (j.set "node_type" (.str "group"))
  let j ← if (j.find "attributes").isNone then lift (j.set "attributes" (.obj [])) else pure j
  writeDoc D (base ++ ["zarr.json"]) j

/-- generic/metadata.hxx:30-48 `writeFileMetadata` -/
def writeFileMetadata (D : Disk) (base : Path) (isZarr : Bool) (zarrFormat : Int) : FsProg Unit := do
  if isZarr && zarrFormat == 3 then writeV3GroupMetadata D base
  else if isZarr then writeDoc D (base ++ [".zgroup"]) (.obj [("zarr_format", .int zarrFormat)])
  else
    let j := (← jsonRead base ["attributes.json"]).getD .null
    let j ← lift (j.set "n5" (.str n5Version))
    writeDoc D (base ++ ["attributes.json"]) j

/-- generic/metadata.hxx:51-62 `writeGroupMetadata` -/
def writeGroupMetadata (D : Disk) (base : Path) (isZarr : Bool) (zarrFormat : Int) : FsProg Unit := do
  if isZarr && zarrFormat == 3 then writeV3GroupMetadata D base
  else if isZarr then writeDoc D (base ++ [".zgroup"]) (.obj [("zarr_format", .int zarrFormat)])
  else return ()

/-- generic/metadata.hxx:66-83 `writeDatasetMetadata` -/
def writeDatasetMetadata (D : Disk) (base : Path) (m : Meta) : FsProg Unit := do
  if m.isZarr && m.zarrFormat == 3 then
    let existing ← jsonRead base ["zarr.json"]
    let j ← lift m.toJson
    let j ← match existing.bind fun e => e.find "attributes" with
      | some a => lift (j.set "attributes" a)
      | none => pure j
    writeDoc D (base ++ ["zarr.json"]) j
  else
    let j ← lift m.toJson
    writeDoc D (base ++ [if m.isZarr then ".zarray" else "attributes.json"]) j

/-- filesystem/factory.hxx:58-65 and factory.hxx:122-160 `createDataset` -/
def createDataset (D : Disk) (root : GroupHandle) (key : Path) (a : CreateArgs) : FsProg DatasetObj := do
  let m ← lift (a.toMeta (← groupIsZarr root))
  let d := root.dataset key a.delimiter a.zarrFormat a.encoding
  createDatasetDir d
  writeDatasetMetadata D d.path m
  lift (makeDataset d m)

/-- factory.hxx:194-208 and filesystem/factory.hxx:68-73 `createFile` -/
def createFile (D : Disk) (g : GroupHandle) (isZarr : Bool) (zarrFormat : Int := 2) : FsProg Unit := do
  createFileDir g
  writeFileMetadata D g.path isZarr zarrFormat

/-- factory.hxx:211-228 and filesystem/factory.hxx:76-80 `createGroup` -/
def createGroup (D : Disk) (root : GroupHandle) (key : Path) (zarrFormat : Int := 2) : FsProg Unit := do
  let isZarr ← groupIsZarr root
  createGroupDir (root.group key)
  writeGroupMetadata D (root.group key).path isZarr zarrFormat

/-! ### reading -/

/-- generic/attributes.hxx:24-32 `readV3Attributes` -/
def readV3Attributes (base : Path) (j : Json) : FsProg Json := do
  match ← jsonRead base ["zarr.json"] with
  | none => return j
  | some full => return (full.find "attributes").getD j

/-- generic/attributes.hxx:67-74 `readAttributes` -/
def readAttributes (base : Path) (isZarr : Bool) (j : Json) : FsProg Json := do
  if isZarr && (← look (FsM.exist (base ++ ["zarr.json"]))) then readV3Attributes base j
  else return (← jsonRead base [Generic.attributesName isZarr]).getD j

/-- attributes.hxx:63-78: attributes of a group or file -/
def readGroupAttributes (g : GroupHandle) (j : Json) : FsProg Json := do
  readAttributes g.path (← groupIsZarr g) j

/-- attributes.hxx:186-211: attributes of a dataset -/
def readDatasetAttributes (d : DatasetHandle) (j : Json) : FsProg Json := do
  let j ← readAttributes d.path (← datasetIsZarr d) j
  if !(← datasetIsZarr d) then lift (hideN5Dataset j)
  else return j

/-- filesystem/metadata.hxx:24-41 `getMetadataPath` -/
def getMetadataPath (base : Path) : FsProg (Path × Bool) := do
  let hasZarr ← look (FsM.exist (base ++ [".zarray"]))
  let hasV3 ← look (FsM.exist (base ++ ["zarr.json"]))
  let hasN5 ← look (FsM.exist (base ++ ["attributes.json"]))
  if (hasZarr || hasV3) && hasN5 then lift (.throw .runtimeError)
  else if !hasZarr && !hasV3 && !hasN5 then lift (.throw .runtimeError)
  else
    let name := if hasV3 then "zarr.json" else if hasZarr then ".zarray" else "attributes.json"
    return (base ++ [name], hasZarr || hasV3)

/-- filesystem/metadata.hxx:93-99 `readMetadata` -/
def readDatasetMetadata (base : Path) : FsProg Meta := do
  let (path, isZarr) ← getMetadataPath base
  let j ← look (FsM.parse path)
  lift (Meta.fromJson j isZarr)

/-- filesystem/factory.hxx:44-54 `openDataset` -/
def openHandle (d : DatasetHandle) : FsProg DatasetObj := do
  if !(← look (FsM.exist d.path)) then lift (.throw .runtimeError)
  else
    let m ← readDatasetMetadata d.path
    lift (makeDataset d m)

/-- factory.hxx:18-56 `getZarrChunkConfig` -/
def readChunkConfig (base : Path) : FsProg ChunkConfig := do
  if ← look (FsM.exist (base ++ ["zarr.json"])) then
    let j ← look (FsM.parse (base ++ ["zarr.json"]))
    lift (getZarrChunkConfig (some j) none)
  else if ← look (FsM.exist (base ++ [".zarray"])) then
    let j ← look (FsM.parse (base ++ [".zarray"]))
    lift (getZarrChunkConfig none (some j))
  else lift (getZarrChunkConfig none none)

/-- factory.hxx:61-90 `openDataset` -/
def openDataset (root : GroupHandle) (key : Path) : FsProg DatasetObj := do
  let cfg ← if ← groupIsZarr root then readChunkConfig (root.path ++ key) else pure ChunkConfig.initial
  openHandle (root.dataset key cfg.delimiter cfg.zarrFormat cfg.encoding)

end Stepwise

end Z5
