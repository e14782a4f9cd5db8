import Verif.Model.Factory
import Verif.Model.S3

/-!
# Files, groups, datasets and attributes on S3
(`s3/attributes.hxx`, `s3/metadata.hxx`, `s3/factory.hxx`, the handles of `s3/handle.hxx`; the templates of
`generic/attributes.hxx` and `generic/metadata.hxx` over the `JsonIO` of S3)
-/

namespace Z5

/-- the name of a document as a key -/
def docKey (base : Key) (name : String) : Key := joinKey base name.toList

/-- s3/attributes.hxx:13-25 `readJson`, 50-52 `JsonIO::read`: an empty object is `{}`; other text that is not JSON
    is a parse error. -/
def s3Read (base : Key) (name : String) : S3M (Option Json) := do
  match ← getObject (docKey base name) with
  | none => return none
  | some (.doc j) => return some j
  | some (.file []) => return some (.obj [])
  | some (.file (_ :: _)) => S3M.lift (.throw .typeError)

/-- s3/attributes.hxx:27-30 `writeJson`, 54-60 `JsonIO::write`, `writePretty` -/
def s3Write (base : Key) (name : String) (j : Json) : S3M Unit := putObject (docKey base name) (.doc j)

/-- s3/attributes.hxx:46-48 `JsonIO::exists` -/
def s3Exists (base : Key) (name : String) : S3M Bool := objectExists (docKey base name)

/-- s3/handle.hxx:416-419 `isZarrGroup`, 476, 525 -/
def S3Handle.isZarr (h : S3Handle) : S3M Bool := do
  if ← h.has ".zgroup".toList then return true
  else h.has "zarr.json".toList

/-- The handle of a dataset: s3/handle.hxx:555-622: the name in the bucket; the path of `base` is not used. -/
structure S3DatasetHandle where
  name : Key
  base : DatasetHandle

/-- s3/handle.hxx:559-568 -/
def S3Handle.dataset (g : S3Handle) (key : Key) (delimiter : String := ".") (zarrFormat : Int := 2)
    (encoding : String := "default") : S3DatasetHandle :=
  ⟨(g.child key).name, ⟨[], g.mode, delimiter, zarrFormat, encoding, none⟩⟩

/-- s3/handle.hxx:420-423 `isZarrDataset`, 582-589 `isZarr`.  The first call stores its result; functions below that
    call it more than once keep the result instead. -/
def S3DatasetHandle.isZarr (d : S3DatasetHandle) : S3M Bool := do
  match d.base.cache with
  | some b => return b
  | none =>
    let h : S3Handle := ⟨d.name, d.base.mode⟩
    if ← h.has ".zarray".toList then return true
    else h.has "zarr.json".toList

/-! ### Attributes -/

namespace GenericS3

/-- generic/attributes.hxx:24-32 `readV3Attributes` -/
def readV3Attributes (base : Key) (j : Json) : S3M Json := do
  match ← s3Read base "zarr.json" with
  | none => return j
  | some full => return (full.find "attributes").getD j

/-- generic/attributes.hxx:35-44 `writeV3Attributes` -/
def writeV3Attributes (base : Key) (j : Json) : S3M Unit := do
  let full := (← s3Read base "zarr.json").getD (.obj [])
  let attrs ← S3M.lift (mergeAttributes ((full.find "attributes").getD (.obj [])) j)
  let full ← S3M.lift (full.set "attributes" attrs)
  s3Write base "zarr.json" full

/-- generic/attributes.hxx:47-56 `removeV3Attribute` -/
def removeV3Attribute (base : Key) (key : String) : S3M Unit := do
  match ← s3Read base "zarr.json" with
  | none => return ()
  | some full =>
    match full.find "attributes" with
    | none => s3Write base "zarr.json" full
    | some attrs =>
      let attrs ← S3M.lift (attrs.erase key)
      let full ← S3M.lift (full.set "attributes" attrs)
      s3Write base "zarr.json" full

/-- `isZarr && io.exists("zarr.json")`, generic/attributes.hxx:68, 78, 94 -/
def isV3 (base : Key) (isZarr : Bool) : S3M Bool :=
  if isZarr then s3Exists base "zarr.json" else return false

/-- generic/attributes.hxx:67-74 `readAttributes` -/
def readAttributes (base : Key) (isZarr : Bool) (j : Json) : S3M Json := do
  if ← isV3 base isZarr then readV3Attributes base j
  else return (← s3Read base (Generic.attributesName isZarr)).getD j

/-- generic/attributes.hxx:77-90 `writeAttributes` -/
def writeAttributes (base : Key) (isZarr : Bool) (j : Json) : S3M Unit := do
  if ← isV3 base isZarr then writeV3Attributes base j
  else
    let out := (← s3Read base (Generic.attributesName isZarr)).getD (.obj [])
    let out ← S3M.lift (mergeAttributes out j)
    s3Write base (Generic.attributesName isZarr) out

/-- generic/attributes.hxx:93-105 `removeAttribute` -/
def removeAttribute (base : Key) (isZarr : Bool) (key : String) : S3M Unit := do
  if ← isV3 base isZarr then removeV3Attribute base key
  else
    match ← s3Read base (Generic.attributesName isZarr) with
    | none => return ()
    | some out =>
      let out ← S3M.lift (out.erase key)
      s3Write base (Generic.attributesName isZarr) out

end GenericS3

/-- generic/attributes.hxx:109-134 `isSubGroup` with `hasNodeExists` false (s3/attributes.hxx:44), and
    s3/attributes.hxx:109-113.  If `zarr.json` disappears between the two requests, `j` is `null`, of which
    `value` throws. -/
def S3Handle.isSubGroup (h : S3Handle) (key : Key) : S3M Bool := do
  let name : String → Key := fun n => joinKey h.name (key ++ '/' :: n.toList)
  if ← h.isZarr then
    if ← objectExists (name "zarr.json") then
      match ← getObject (name "zarr.json") with
      | some (.doc j) => return decide ((← S3M.lift (j.valueStr "node_type" "group")) = "group")
      | some (.file []) => return true
      | _ => S3M.lift (.throw .typeError)
    else objectExists (name ".zgroup")
  else
    match ← getObject (name "attributes.json") with
    | none => return true
    | some (.doc j) => return !(← S3M.lift (hasAllN5DatasetAttributes j))
    | some (.file []) => return true
    | some (.file (_ :: _)) => S3M.lift (.throw .typeError)

/-- attributes.hxx:63-78 and s3/attributes.hxx:71-75: attributes of a group or file -/
def S3Handle.readAttributes (h : S3Handle) (j : Json) : S3M Json := do
  GenericS3.readAttributes h.name (← h.isZarr) j

/-- attributes.hxx:81-102, s3/attributes.hxx:77-81 -/
def S3Handle.writeAttributes (h : S3Handle) (j : Json) : S3M Unit := do
  if !h.mode.canWrite then S3M.lift (.throw .invalidArgument)
  else GenericS3.writeAttributes h.name (← h.isZarr) j

/-- attributes.hxx:105-126, s3/attributes.hxx:83-87 -/
def S3Handle.removeAttribute (h : S3Handle) (key : String) : S3M Unit := do
  if !h.mode.canWrite then S3M.lift (.throw .invalidArgument)
  else GenericS3.removeAttribute h.name (← h.isZarr) key

/-- attributes.hxx:130-155: on the handle of a file -/
def S3Handle.writeFileAttributes (h : S3Handle) (j : Json) : S3M Unit := do
  if !h.mode.canWrite then S3M.lift (.throw .invalidArgument)
  else do
    if !(← h.isZarr) then S3M.lift (protectN5File j)
    GenericS3.writeAttributes h.name (← h.isZarr) j

/-- attributes.hxx:24-29, 158-183: on the handle of a file -/
def S3Handle.removeFileAttribute (h : S3Handle) (key : String) : S3M Unit := do
  if !h.mode.canWrite then S3M.lift (.throw .invalidArgument)
  else do
    if !(← h.isZarr) then
      if key = "n5" then S3M.lift (.throw .runtimeError)
    GenericS3.removeAttribute h.name (← h.isZarr) key

/-- attributes.hxx:186-211, s3/attributes.hxx:90-94 -/
def S3DatasetHandle.readAttributes (d : S3DatasetHandle) (j : Json) : S3M Json := do
  let z ← d.isZarr
  let j ← GenericS3.readAttributes d.name z j
  if !z then S3M.lift (hideN5Dataset j)
  else return j

/-- attributes.hxx:214-240, s3/attributes.hxx:96-100 -/
def S3DatasetHandle.writeAttributes (d : S3DatasetHandle) (j : Json) : S3M Unit := do
  if !d.base.mode.canWrite then S3M.lift (.throw .invalidArgument)
  else do
    let z ← d.isZarr
    if !z then S3M.lift (protectN5Dataset j)
    GenericS3.writeAttributes d.name z j

/-- attributes.hxx:44-50, 243-269, s3/attributes.hxx:102-106 -/
def S3DatasetHandle.removeAttribute (d : S3DatasetHandle) (key : String) : S3M Unit := do
  if !d.base.mode.canWrite then S3M.lift (.throw .invalidArgument)
  else do
    let z ← d.isZarr
    if !z then
      if n5DatasetKeys.contains key then S3M.lift (.throw .runtimeError)
    GenericS3.removeAttribute d.name z key

/-! ### Creating and opening -/

/-- s3/handle.hxx:528-536 `Group::create`, 597-605 `Dataset::create`: nothing is stored. -/
def S3Handle.create (h : S3Handle) : S3M Unit := do
  if h.mode = .r then S3M.lift (.throw .invalidArgument)
  else if ← h.exist then S3M.lift (.throw .invalidArgument)
  else return ()

/-- s3/handle.hxx:479-490 `File::create` -/
def S3Handle.createAsFile (h : S3Handle) : S3M Unit := do
  if !h.mode.canCreate then S3M.lift (.throw .invalidArgument)
  else if ← h.exist then S3M.lift (.throw .invalidArgument)
  else return ()

namespace GenericS3

/-- generic/metadata.hxx:17-27 `writeV3GroupMetadata` -/
def writeV3GroupMetadata (base : Key) : S3M Unit := do
  let j := (← s3Read base "zarr.json").getD .null
  let j ← S3M.lift (j.set "zarr_format" (.int 3))
  let j ← S3M.lift (j.set "node_type" (.str "group"))
  let j ← if (j.find "attributes").isNone then S3M.lift (j.set "attributes" (.obj [])) else pure j
  s3Write base "zarr.json" j

/-- generic/metadata.hxx:30-48 `writeFileMetadata` -/
def writeFileMetadata (base : Key) (isZarr : Bool) (zarrFormat : Int) : S3M Unit := do
  if isZarr && zarrFormat == 3 then writeV3GroupMetadata base
  else if isZarr then s3Write base ".zgroup" (.obj [("zarr_format", .int zarrFormat)])
  else
    let j := (← s3Read base "attributes.json").getD .null
    let j ← S3M.lift (j.set "n5" (.str n5Version))
    s3Write base "attributes.json" j

/-- generic/metadata.hxx:51-62 `writeGroupMetadata` -/
def writeGroupMetadata (base : Key) (isZarr : Bool) (zarrFormat : Int) : S3M Unit := do
  if isZarr && zarrFormat == 3 then writeV3GroupMetadata base
  else if isZarr then s3Write base ".zgroup" (.obj [("zarr_format", .int zarrFormat)])
  else return ()

/-- generic/metadata.hxx:66-83 `writeDatasetMetadata` -/
def writeDatasetMetadata (base : Key) (m : Meta) : S3M Unit := do
  if m.isZarr && m.zarrFormat == 3 then
    let existing ← s3Read base "zarr.json"
    let j ← S3M.lift m.toJson
    let j ← match existing.bind fun e => e.find "attributes" with
      | some a => S3M.lift (j.set "attributes" a)
      | none => pure j
    s3Write base "zarr.json" j
  else
    let j ← S3M.lift m.toJson
    s3Write base (if m.isZarr then ".zarray" else "attributes.json") j

end GenericS3

/-- A dataset object: the name in the bucket, and what its constructors keep (the same templates as for files) -/
structure S3DatasetObj where
  name : Key
  obj : DatasetObj

/-- s3/factory.hxx:15-28 `makeDatasetTyped`: complex numbers are not supported. -/
def makeS3Dataset (d : S3DatasetHandle) (m : Meta) : Res S3DatasetObj :=
  if m.dtype.isComplex then .throw .runtimeError
  else do return ⟨d.name, ← makeDataset d.base m⟩

/-- s3/metadata.hxx:31-55 `readMetadata` -/
def readS3Metadata (base : Key) : S3M Meta := do
  let hasV3 ← s3Exists base "zarr.json"
  let hasV2 ← if hasV3 then pure false else s3Exists base ".zarray"
  let name := if hasV3 then "zarr.json" else if hasV2 then ".zarray" else "attributes.json"
  match ← s3Read base name with
  | none => S3M.lift (.throw .runtimeError)
  | some j => S3M.lift (Meta.fromJson j (hasV3 || hasV2))

/-- s3/factory.hxx:74-82 `openDataset` -/
def S3DatasetHandle.openDataset (d : S3DatasetHandle) : S3M S3DatasetObj := do
  if !(← S3Handle.exist ⟨d.name, d.base.mode⟩) then S3M.lift (.throw .runtimeError)
  else
    let m ← readS3Metadata d.name
    S3M.lift (makeS3Dataset d m)

/-- s3/factory.hxx:85-92 `createDataset` -/
def S3DatasetHandle.createDataset (d : S3DatasetHandle) (m : Meta) : S3M S3DatasetObj := do
  S3Handle.create ⟨d.name, d.base.mode⟩
  GenericS3.writeDatasetMetadata d.name m
  S3M.lift (makeS3Dataset d m)

/-- s3/factory.hxx:36-71 `getZarrChunkConfig`: the objects that it parses (an empty one is a parse error) -/
def readS3ChunkConfig (base : Key) : S3M ChunkConfig := do
  match ← getObject (docKey base "zarr.json") with
  | some (.doc j) => S3M.lift (getZarrChunkConfig (some j) none)
  | some (.file _) => S3M.lift (.throw .typeError)
  | none =>
    match ← getObject (docKey base ".zarray") with
    | some (.doc j) => S3M.lift (getZarrChunkConfig none (some j))
    | some (.file _) => S3M.lift (.throw .typeError)
    | none => S3M.lift (getZarrChunkConfig none none)

/-- factory.hxx:61-77 `openDataset` -/
def S3Handle.openDataset (root : S3Handle) (key : Key) : S3M S3DatasetObj := do
  let cfg ← if ← root.isZarr then readS3ChunkConfig (joinKey root.name key) else pure ChunkConfig.initial
  (root.dataset key cfg.delimiter cfg.zarrFormat cfg.encoding).openDataset

/-- factory.hxx:122-148 `createDataset` -/
def S3Handle.createDataset (root : S3Handle) (key : Key) (a : CreateArgs) : S3M S3DatasetObj := do
  let m ← S3M.lift (a.toMeta (← root.isZarr))
  (root.dataset key m.delimiter m.zarrFormat m.encoding).createDataset m

/-- factory.hxx:194-200 and s3/factory.hxx:95-101 `createFile` -/
def S3Handle.createFile (h : S3Handle) (isZarr : Bool) (zarrFormat : Int := 2) : S3M Unit := do
  h.createAsFile
  GenericS3.writeFileMetadata h.name isZarr zarrFormat

/-- factory.hxx:211-218 and s3/factory.hxx:104-110 `createGroup` -/
def S3Handle.createGroup (root : S3Handle) (key : Key) (zarrFormat : Int := 2) : S3M Unit := do
  let isZarr ← root.isZarr
  (root.child key).create
  GenericS3.writeGroupMetadata (root.child key).name isZarr zarrFormat

/-- s3/factory.hxx:113-130 `relativePath` -/
def s3RelativePath (a b : Key) : Key :=
  if a.isEmpty then b
  else if b.length ≥ a.length ∧ b.take a.length = a then
    let rel := b.drop a.length
    if rel.head? = some '/' then rel.drop 1 else rel
  else b

end Z5
