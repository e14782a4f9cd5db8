import Verif.Model.Python

/-!
# Creating datasets in the Python module

`src/python/module/z5py/dataset.py` and `group.py`: `create_dataset`, `require_dataset`, `compression` and
`compression_opts`, with the defaults and checks of the Python code.  All codecs are compiled in.  Shapes
are natural numbers (negative ones are rejected by nanobind).
-/

namespace Z5

/-- Keyword arguments or a dictionary; the values are what `json.dumps` makes of them. -/
abbrev PyDict := List (String × Json)

/-- dataset.py:127-139: which keys are known, and `default_opts.update(compression_options)` -/
def pyUpdate (dflt given : PyDict) : Res PyDict :=
  if given.any (fun p => (assocGet dflt p.1).isNone) then .throw .runtimeError
  else .ok (given.foldl (fun o p => assocSet o p.1 p.2) dflt)

/-- dataset.py:109-139 `_to_zarr_compression_options` -/
def pyZarrOptions (compression : String) (given : PyDict) : Res PyDict :=
  if compression = "blosc" then
    pyUpdate [("codec", .str "lz4"), ("clevel", .int 5), ("shuffle", .int 1), ("blocksize", .int 0)] given
  else if compression = "zlib" then pyUpdate [("id", .str "zlib"), ("level", .int 5)] given
  else if compression = "gzip" then pyUpdate [("id", .str "gzip"), ("level", .int 5)] given
  else if compression = "bzip2" then pyUpdate [("level", .int 5)] given
  else if compression = "lz4" then pyUpdate [("level", .int 6)] given
  else if compression = "zstd" then pyUpdate [("level", .int 3)] given
  else if compression = "raw" then pyUpdate [] given
  else .throw .runtimeError

/-- dataset.py:141-167 `_to_zarr_v3_compression_options` -/
def pyZarrV3Options (compression : String) (given : PyDict) : Res PyDict :=
  if compression = "blosc" then
    pyUpdate [("codec", .str "lz4"), ("level", .int 5), ("shuffle", .int 1), ("blocksize", .int 0)] given
  else if compression = "gzip" then pyUpdate [("level", .int 5), ("useZlib", .bool false)] given
  else if compression = "zstd" then pyUpdate [("level", .int 3)] given
  else if compression = "raw" then pyUpdate [] given
  else .throw .runtimeError

/-- dataset.py:169-196 `_to_n5_compression_options` -/
def pyN5Options (compression : String) (given : PyDict) : Res PyDict :=
  if compression = "gzip" then pyUpdate [("level", .int 5)] given
  else if compression = "bzip2" then pyUpdate [("level", .int 5)] given
  else if compression = "raw" then pyUpdate [] given
  else if compression = "xz" then pyUpdate [("level", .int 6)] given
  else if compression = "lz4" then pyUpdate [("level", .int 6)] given
  else if compression = "blosc" then
    pyUpdate [("codec", .str "lz4"), ("clevel", .int 5), ("shuffle", .int 1), ("blocksize", .int 0),
      ("nthreads", .int 1)] given
  else if compression = "zstd" then pyUpdate [("level", .int 3)] given
  else .throw .runtimeError

/-- dataset.py:44, 69 `compressors_zarr` -/
def pyCompressorsZarr : List String := ["raw", "blosc", "zlib", "bzip2", "gzip", "zstd"]

/-- dataset.py:45, 74 `compressors_n5` -/
def pyCompressorsN5 : List String := ["raw", "blosc", "gzip", "bzip2", "xz", "lz4", "zstd"]

/-- dataset.py:47, 79 `compressors_zarr_v3` -/
def pyCompressorsV3 : List String := ["raw", "gzip", "blosc", "zstd"]

/-- dataset.py:57-66 `_dtype_dict`: the names of the data types; numpy's `float16`, `bool`, complex and others
    are not among them. -/
def pyDtypes : List String :=
  ["uint8", "uint16", "uint32", "uint64", "int8", "int16", "int32", "int64", "float32", "float64"]

/-- the largest `d'` up to `d` with `d' - 1/2` at most the `n`-th root of 262144 -/
def pyRoot (n : Nat) : Nat → Nat
  | 0 => 0
  | d + 1 => if (2 * d + 1) ^ n ≤ 2 ^ n * 262144 then d + 1 else pyRoot n d

/-- shape_utils.py:113-115: `int(round(262144 ** (1. / n)))`, the integer closest to the root (a tie is impossible; the
    error of floating point arithmetic is taken not to matter) -/
def pyDefaultDim (n : Nat) : Nat := pyRoot n 262144

/-- shape_utils.py:100-116 `get_default_chunks`; for an empty shape there is a `ZeroDivisionError` -/
def pyDefaultChunks (shape : List Nat) : Res (List Nat) :=
  if shape = [] then .throw .runtimeError
  else .ok (shape.map (min (pyDefaultDim shape.length)))

/-- The arguments of `create_dataset`, group.py:198-203, dataset.py:250-259.  Of `data` there are its shape and
    type (the data is written with `ds[:] = data`, which is another operation). -/
structure PyCreateArgs where
  shape : Option (List Nat) := none
  dtype : Option String := none
  data : Option (List Nat × String) := none
  chunks : Option (List Nat) := none
  compression : Option String := none
  fill : Dbl := .zero
  shards : Option (List Nat) := none
  encoding : String := "default"
  /-- `self._dimension_separator` of the group -/
  separator : String := "."
  options : PyDict := []

/-- dataset.py:260-281: shape and data type from the arguments or from the data -/
def PyCreateArgs.what (a : PyCreateArgs) : Res (List Nat × String) :=
  match a.data with
  | some (s, t) =>
    if a.shape.any (· != s) then .throw .invalidArgument
    else if a.dtype.any (· != t) then .throw .invalidArgument
    else .ok (s, t)
  | none => match a.shape with
    | none => .throw .typeError
    | some s => match a.dtype with
      | none => .throw .typeError
      | some t => .ok (s, t)

/-- dataset.py:302-333: compressor and options for the format -/
def PyCreateArgs.compressor (a : PyCreateArgs) (isZarr : Bool) (zarrFormat : Int) : Res (String × PyDict) :=
  if isZarr = true ∧ zarrFormat = 3 then do
    let c := a.compression.getD "blosc"
    if c ∉ pyCompressorsV3 then .throw .invalidArgument
    else return (c, ← pyZarrV3Options c a.options)
  else if a.compression.any (fun c => !decide (c ∈ if isZarr then pyCompressorsZarr else pyCompressorsN5)) then
    .throw .invalidArgument
  else if isZarr then do
    let c := a.compression.getD "blosc"
    return (c, ← pyZarrOptions c a.options)
  else do
    let c := a.compression.getD "gzip"
    return (c, ← pyN5Options c a.options)

/-- dataset.py:258-336: the arguments of `_z5py.create_dataset`; `isZarr` is that of the group -/
def PyCreateArgs.resolve (a : PyCreateArgs) (isZarr : Bool) (zarrFormat : Int) : Res (CreateArgs × PyDict) := do
  let (shape, dtype) ← a.what
  let chunks ← match a.chunks with
    | some c => Res.ok c
    | none => pyDefaultChunks shape
  if chunks.length ≠ shape.length then .throw .runtimeError
  else if dtype ∉ pyDtypes then .throw .invalidArgument
  else if a.shards.isSome ∧ ¬ (isZarr = true ∧ zarrFormat = 3) then .throw .invalidArgument
  else
    let (compression, options) ← a.compressor isZarr zarrFormat
    let v3 := decide (isZarr = true ∧ zarrFormat = 3)
    return ({ dtype := dtype, shape := shape, chunkShape := PyGroup.limitChunks chunks shape,
              compressor := compression, fill := a.fill,
              delimiter := if v3 then (if a.encoding = "v2" then "." else "/") else a.separator,
              zarrFormat := if v3 then 3 else 2, encoding := if v3 then a.encoding else "default",
              shardShape := if v3 then a.shards.getD [] else [] }, options)

/-- factory.hxx:165-191 `createDataset` with options as JSON and a name as in `PyName`; lib/factory.cxx:21-34 -/
def GroupHandle.createDatasetJsonAt (root : GroupHandle) (n : PyName) (a : CreateArgs) (options : Json) :
    FsM DatasetObj := do
  let _ ← FsM.lift (Meta.atOrRuntime Compressor.stringToCompressor a.compressor)
  let opts ← FsM.lift (do jsonToOptions (← options.items) [])
  root.createDatasetAt n { a with options := opts }

namespace PyGroup

/-- dataset.py:249-342 `_create_dataset` (`is_zarr` is asked for after shape and chunks have been checked; that makes no
    difference unless it throws) -/
def newDatasetFull (g : PyGroup) (n : PyName) (a : PyCreateArgs) : FsM DatasetObj := do
  let isZarr ← g.handle.isZarr
  let (args, options) ← FsM.lift (a.resolve isZarr g.zarrFormat)
  g.handle.createDatasetJsonAt n args (.obj options)

/-- group.py:198-259 `create_dataset` -/
def createDatasetFull (g : PyGroup) (n : PyName) (a : PyCreateArgs) : FsM DatasetObj := do
  if !g.handle.mode.canWrite then FsM.lift (.throw .invalidArgument)
  else if ← g.contains n then FsM.lift (.throw .keyError)
  else if n.parts.length > 1 then
    let g' ← g.requireGroups n.parts.dropLast
    -- the method is called again, with the last part
    let last : PyName := { parts := n.parts.getLast?.toList }
    if !g'.handle.mode.canWrite then FsM.lift (.throw .invalidArgument)
    else if ← g'.contains last then FsM.lift (.throw .keyError)
    else g'.newDatasetFull last a
  else g.newDatasetFull n a

/-- dataset.py:199-246 `_require_dataset`, for a name without leading slash; `shape` is not `None`.  The name of the
    existing data type is one of N5 (lib/dataset.cxx:236). -/
def requireDataset (g : PyGroup) (key : Path) (a : PyCreateArgs) : FsM DatasetObj := do
  if ← g.handle.has key then
    if ← g.handle.isSubGroup key then FsM.lift (.throw .typeError)
    else
      let ds ← g.handle.openDataset key
      if a.shape.any (· != ds.info.shape) then FsM.lift (.throw .typeError)
      else if a.chunks.any (· != ds.info.chunkShape) then FsM.lift (.throw .typeError)
      else if a.dtype.any (fun t => !decide (enumAt Datatype.dtypeToN5 ds.info.dtype = .ok t)) then
        FsM.lift (.throw .typeError)
      else return ds
  else if !g.handle.mode.canWrite then FsM.lift (.throw .invalidArgument)
  else g.newDatasetFull { parts := key } a

end PyGroup

/-- generic/dataset.hxx:152-157 with lib/dataset.cxx:244-248 and dataset.py:411-415 `compression`; `operator[]` of
    a `std::map` gives the empty text for a missing key -/
def DatasetObj.pyCompression (ds : DatasetObj) : String :=
  match enumAt (if ds.info.isZarr then Compressor.compressorToZarr else Compressor.compressorToN5)
    ds.info.compressor with
  | .ok s => s
  | _ => ""

/-- the `getOptions` functions of the compressors: blosc_compressor.hxx:69-75, zlib_compressor.hxx:220-225,
    bzip2_compressor.hxx:105, lz4_compressor.hxx:61, xz_compressor.hxx:137, zstd_compressor.hxx:59,
    raw_compressor.hxx:34, in the order of keys of a `std::map` -/
def Settings.getOptions : Settings → Opts
  | .raw => []
  | .blosc codec level shuffle blocksize nthreads =>
    [("blocksize", .int blocksize), ("codec", .str codec), ("level", .int level), ("nthreads", .int nthreads),
     ("shuffle", .int shuffle)]
  | .zlib level useZlib => [("level", .int level), ("useZlib", .bool useZlib)]
  | .bzip2 level => [("level", .int level)]
  | .lz4 level => [("level", .int level)]
  | .xz level => [("level", .int level)]
  | .zstd level => [("level", .int level)]

/-- dataset.py:417-429 `compression_opts`, lib/dataset.cxx:249-255: without options the JSON is `null`, Python's `None`,
    which has no method `pop`. -/
def DatasetObj.pyCompressionOpts (ds : DatasetObj) : Res PyDict :=
  match ds.settings.getOptions with
  | [] => .throw .attributeError
  | o => .ok (assocErase (optionsToJson o []) "useZlib")

end Z5
