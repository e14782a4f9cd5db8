import Verif.Model.Attributes
import Verif.Model.Blocking
import Verif.Model.Sharding

/-!
# Model of the factory functions: creating, opening and removing files, groups and datasets
(`factory.hxx`, `filesystem/factory.hxx`, `generic/metadata.hxx`, `filesystem/metadata.hxx`)
-/

namespace Z5

/-- filesystem/handle.hxx:100-109 `Group::create` -/
def GroupHandle.create (g : GroupHandle) : FsM Unit := do
  if g.mode = .r then FsM.lift (.throw .invalidArgument)
  else if ← FsM.exist g.path then FsM.lift (.throw .invalidArgument)
  else FsM.createDirectories g.path

/-- filesystem/handle.hxx:153-162 `File::create` -/
def GroupHandle.createAsFile (g : GroupHandle) : FsM Unit := do
  if !g.mode.canCreate then FsM.lift (.throw .invalidArgument)
  else if ← FsM.exist g.path then FsM.lift (.throw .invalidArgument)
  else FsM.createDirectories g.path

/-- filesystem/handle.hxx:230-241 `Dataset::create` -/
def DatasetHandle.create (d : DatasetHandle) : FsM Unit := do
  if d.mode = .r then FsM.lift (.throw .invalidArgument)
  else if ← FsM.exist d.path then FsM.lift (.throw .invalidArgument)
  else FsM.createDirectories d.path

/-- filesystem/handle.hxx:111-121, 164-173 `Group::remove`, `File::remove` -/
def GroupHandle.remove (g : GroupHandle) : FsM Unit := do
  if !g.mode.canWrite then FsM.lift (.throw .invalidArgument)
  else if !(← FsM.exist g.path) then FsM.lift (.throw .invalidArgument)
  else FsM.removeAll g.path

/-- filesystem/handle.hxx:243-252 `Dataset::remove` -/
def DatasetHandle.remove (d : DatasetHandle) : FsM Unit := do
  if !d.mode.canWrite then FsM.lift (.throw .invalidArgument)
  else if !(← FsM.exist d.path) then FsM.lift (.throw .invalidArgument)
  else FsM.removeAll d.path

/-- generic/metadata.hxx:17-27 `writeV3GroupMetadata` -/
def writeV3GroupMetadata (base : Path) : FsM Unit := do
  let j := (← jsonRead base ["zarr.json"]).getD .null
  let j ← FsM.lift (j.set "zarr_format" (.int 3))
  let j ← FsM.lift (j.set "node_type" (.str "group"))
  let j ← if (j.find "attributes").isNone then FsM.lift (j.set "attributes" (.obj [])) else pure j
  FsM.writeDoc (base ++ ["zarr.json"]) j

/-- metadata.hxx:17-27: the N5 version that is written -/
def n5Version : String := "2.0.0"

/-- generic/metadata.hxx:30-48 `writeFileMetadata` -/
def writeFileMetadata (base : Path) (isZarr : Bool) (zarrFormat : Int) : FsM Unit := do
  if isZarr && zarrFormat == 3 then writeV3GroupMetadata base
  else if isZarr then FsM.writeDoc (base ++ [".zgroup"]) (.obj [("zarr_format", .int zarrFormat)])
  else
    let j := (← jsonRead base ["attributes.json"]).getD .null
    let j ← FsM.lift (j.set "n5" (.str n5Version))
    FsM.writeDoc (base ++ ["attributes.json"]) j

/-- generic/metadata.hxx:51-62 `writeGroupMetadata` -/
def writeGroupMetadata (base : Path) (isZarr : Bool) (zarrFormat : Int) : FsM Unit := do
  if isZarr && zarrFormat == 3 then writeV3GroupMetadata base
  else if isZarr then FsM.writeDoc (base ++ [".zgroup"]) (.obj [("zarr_format", .int zarrFormat)])
  else return ()

/-- generic/metadata.hxx:66-83 `writeDatasetMetadata` -/
def writeDatasetMetadata (base : Path) (m : Meta) : FsM Unit := do
  if m.isZarr && m.zarrFormat == 3 then
    let existing ← jsonRead base ["zarr.json"]
    let j ← FsM.lift m.toJson
    let j ← match existing.bind fun e => e.find "attributes" with
      | some a => FsM.lift (j.set "attributes" a)
      | none => pure j
    FsM.writeDoc (base ++ ["zarr.json"]) j
  else
    let j ← FsM.lift m.toJson
    FsM.writeDoc (base ++ [if m.isZarr then ".zarray" else "attributes.json"]) j

/-- A dataset object: what its constructors keep (dataset.hxx:31-38, 173-217,
    generic/dataset.hxx:30-37, generic/sharded_dataset.hxx:38-47).  The handle's `isZarr` is known from
    then on. -/
structure DatasetObj where
  info : Meta
  handle : DatasetHandle
  fill : FillVal
  settings : Settings
  sharded : Bool
  deriving DecidableEq, Repr

/-- Complex types: not dispatched to a sharded dataset. -/
def Datatype.isComplex : Datatype → Bool
  | .complex64 | .complex128 | .complex256 => true
  | _ => false

/-- filesystem/factory.hxx:16-39 `makeDataset` with the constructors -/
def makeDataset (d : DatasetHandle) (m : Meta) : Res DatasetObj := do
  let _ ← Blocking.make m.shape m.chunkShape
  let fill ← m.dtype.castFill m.fillValue
  let settings ← initCompressor m.compressor m.options
  if m.shardShape ≠ [] ∧ m.dtype.isComplex = false then
    let _ ← chunksPerShard m.shardShape m.chunkShape
    return ⟨m, { d with cache := some true }, fill, settings, true⟩
  else
    return ⟨m, { d with cache := some m.isZarr }, fill, settings, false⟩

/-- filesystem/metadata.hxx:24-41 `getMetadataPath` -/
def getMetadataPath (base : Path) : FsM (Path × Bool) := do
  let hasZarr ← FsM.exist (base ++ [".zarray"])
  let hasV3 ← FsM.exist (base ++ ["zarr.json"])
  let hasN5 ← FsM.exist (base ++ ["attributes.json"])
  if (hasZarr || hasV3) && hasN5 then FsM.lift (.throw .runtimeError)
  else if !hasZarr && !hasV3 && !hasN5 then FsM.lift (.throw .runtimeError)
  else
    let name := if hasV3 then "zarr.json" else if hasZarr then ".zarray" else "attributes.json"
    return (base ++ [name], hasZarr || hasV3)

/-- filesystem/metadata.hxx:93-99 `readMetadata` -/
def readDatasetMetadata (base : Path) : FsM Meta := do
  let (path, isZarr) ← getMetadataPath base
  let j ← FsM.parse path
  FsM.lift (Meta.fromJson j isZarr)

/-- filesystem/factory.hxx:44-54 `openDataset` -/
def DatasetHandle.openDataset (d : DatasetHandle) : FsM DatasetObj := do
  if !(← FsM.exist d.path) then FsM.lift (.throw .runtimeError)
  else
    let m ← readDatasetMetadata d.path
    FsM.lift (makeDataset d m)

/-- filesystem/factory.hxx:58-65 `createDataset` -/
def DatasetHandle.createDataset (d : DatasetHandle) (m : Meta) : FsM DatasetObj := do
  d.create
  writeDatasetMetadata d.path m
  FsM.lift (makeDataset d m)

/-- factory.hxx:18-56 `getZarrChunkConfig`: which documents it parses -/
def readChunkConfig (base : Path) : FsM ChunkConfig := do
  if ← FsM.exist (base ++ ["zarr.json"]) then
    let j ← FsM.parse (base ++ ["zarr.json"])
    FsM.lift (getZarrChunkConfig (some j) none)
  else if ← FsM.exist (base ++ [".zarray"]) then
    let j ← FsM.parse (base ++ [".zarray"])
    FsM.lift (getZarrChunkConfig none (some j))
  else FsM.lift (getZarrChunkConfig none none)

/-- factory.hxx:61-90 `openDataset` -/
def GroupHandle.openDataset (root : GroupHandle) (key : Path) : FsM DatasetObj := do
  let cfg ← if ← root.isZarr then readChunkConfig (root.path ++ key) else pure ChunkConfig.initial
  (root.dataset key cfg.delimiter cfg.zarrFormat cfg.encoding).openDataset

/-- factory.hxx:95-118 `createDataset` from metadata -/
def GroupHandle.createDatasetFrom (root : GroupHandle) (key : Path) (m : Meta) : FsM DatasetObj :=
  (root.dataset key m.delimiter m.zarrFormat m.encoding).createDataset m

/-- The arguments of `createDataset`, factory.hxx:122-136 -/
structure CreateArgs where
  dtype : String
  shape : List Nat
  chunkShape : List Nat
  compressor : String := "raw"
  options : Opts := []
  fill : Dbl := .zero
  delimiter : String := "."
  zarrFormat : Int := 2
  encoding : String := "default"
  shardShape : List Nat := []

/-- factory.hxx:137-141 -/
def CreateArgs.toMeta (a : CreateArgs) (isZarr : Bool) : Res Meta :=
  createMeta a.dtype a.shape a.chunkShape isZarr a.compressor a.options a.fill a.delimiter a.zarrFormat
    a.encoding a.shardShape

/-- factory.hxx:122-160 `createDataset` -/
def GroupHandle.createDataset (root : GroupHandle) (key : Path) (a : CreateArgs) : FsM DatasetObj := do
  let m ← FsM.lift (a.toMeta (← root.isZarr))
  (root.dataset key a.delimiter a.zarrFormat a.encoding).createDataset m

/-- factory.hxx:165-191: with the compression options as JSON -/
def GroupHandle.createDatasetJson (root : GroupHandle) (key : Path) (a : CreateArgs) (options : Json) :
    FsM DatasetObj := do
  let _ ← FsM.lift (Meta.atOrRuntime Compressor.stringToCompressor a.compressor)
  let opts ← FsM.lift (do jsonToOptions (← options.items) [])
  root.createDataset key { a with options := opts }

/-- factory.hxx:194-208 and filesystem/factory.hxx:68-73 `createFile` -/
def GroupHandle.createFile (g : GroupHandle) (isZarr : Bool) (zarrFormat : Int := 2) : FsM Unit := do
  g.createAsFile
  writeFileMetadata g.path isZarr zarrFormat

/-- factory.hxx:211-228 and filesystem/factory.hxx:76-80 `createGroup` -/
def GroupHandle.createGroup (root : GroupHandle) (key : Path) (zarrFormat : Int := 2) : FsM Unit := do
  let isZarr ← root.isZarr
  (root.group key).create
  writeGroupMetadata (root.group key).path isZarr zarrFormat

/-- filesystem/metadata.hxx:65-90: `readMetadata` of a group or file; `j` is `null` before.
    `jTmp["zarr_format"]` on a value that is not `const` gives `null` for a missing key. -/
def GroupHandle.readMetadata (g : GroupHandle) : FsM Json := do
  if ← g.isZarr then
    let name ← (do if ← FsM.exist (g.path ++ ["zarr.json"]) then return "zarr.json" else return ".zgroup")
    let t ← FsM.parse (g.path ++ [name])
    match t with
    | .obj _ | .null =>
      let j : List (String × Json) := [("zarr_format", (t.find "zarr_format").getD .null)]
      match t.find "node_type" with
      | some n => return .obj (if name = "zarr.json" then j ++ [("node_type", n)] else j)
      | none => return .obj j
    | _ => FsM.lift (.throw .typeError)
  else
    let t ← FsM.parse (g.path ++ ["attributes.json"])
    match t.find "n5" with
    | some v => return .obj [("n5", v)]
    | none => return .null

end Z5
