import Verif.Model.Types
import Verif.Model.Handle

/-!
# Model of `metadata.hxx` and of the reading of the chunk key configuration
-/

namespace Z5

/-- metadata.hxx:15-32, 380-400 (members of `Metadata` and `DatasetMetadata`; the N5 version numbers are
    constants) -/
structure Meta where
  isZarr : Bool
  zarrFormat : Int
  dtype : Datatype
  shape : List Nat
  chunkShape : List Nat
  compressor : Compressor
  options : Opts
  fillValue : Dbl
  delimiter : String
  encoding : String
  shardShape : List Nat
  deriving DecidableEq, Repr

namespace Meta

/-- metadata.hxx:406-410 `checkShapes` -/
def checkShapes (m : Meta) : Res Unit :=
  if m.shape.length ≠ m.chunkShape.length then .throw .runtimeError else .ok ()

/-- metadata.hxx:109-115 and 266-279: NaN and infinities are written as strings. -/
def specialFill : Dbl → Option Json
  | .nan => some (.str "NaN")
  | .inf neg => some (.str (if neg then "-Infinity" else "Infinity"))
  | .fin _ _ => none

/-- metadata.hxx:101-123 `toJsonZarr` -/
def toJsonZarr (m : Meta) : Res Json := do
  let compressor ← writeZarrOptions m.compressor m.options
  let dtype ← enumAt Datatype.dtypeToZarr m.dtype
  let fill := (specialFill m.fillValue).getD (.float m.fillValue)
  return .obj [("compressor", compressor), ("dtype", .str dtype), ("shape", Json.ofShape m.shape),
    ("chunks", Json.ofShape m.chunkShape), ("fill_value", fill), ("filters", .null),
    ("order", .str "C"), ("zarr_format", .int m.zarrFormat), ("dimension_separator", .str m.delimiter)]

/-- metadata.hxx:125-141 `toJsonN5` -/
def toJsonN5 (m : Meta) : Res Json := do
  let dataType ← enumAt Datatype.dtypeToN5 m.dtype
  let compression ← writeN5Options m.compressor m.options
  return .obj [("dimensions", Json.ofShape m.shape.reverse),
    ("blockSize", Json.ofShape m.chunkShape.reverse), ("dataType", .str dataType),
    ("compression", compression)]

/-- metadata.hxx:271-279: the fill value of integer types is written as an integer. -/
def v3Fill (dtype : Datatype) (d : Dbl) : Res Json :=
  match specialFill d with
  | some j => .ok j
  | none =>
    match dtype with
    | .int8 | .int16 | .int32 | .int64 => do return .int (← d.toInt (-2 ^ 63) (2 ^ 63))
    | .uint8 | .uint16 | .uint32 | .uint64 => do return .int (← d.toInt 0 (2 ^ 64))
    | _ => .ok (.float d)

/-- metadata.hxx:286-302: the `sharding_indexed` codec around the codecs of the chunks -/
def shardingCodec (chunkShape : List Nat) (inner : List Json) : Json :=
  .obj [("name", .str "sharding_indexed"),
    ("configuration", .obj [("chunk_shape", Json.ofShape chunkShape), ("codecs", .arr inner),
      ("index_codecs", .arr [bytesCodec, .obj [("name", .str "crc32c")]]),
      ("index_location", .str "end")])]

/-- metadata.hxx:252-312 `toJsonV3`, called with an empty document -/
def toJsonV3 (m : Meta) : Res Json := do
  let dataType ← enumAt Datatype.dtypeToN5 m.dtype
  let fill ← v3Fill m.dtype m.fillValue
  let inner ← writeV3Codecs m.compressor m.options m.dtype.size
  return .obj [("zarr_format", .int 3), ("node_type", .str "array"), ("data_type", .str dataType),
    ("shape", Json.ofShape m.shape),
    ("chunk_grid", .obj [("name", .str "regular"), ("configuration",
      .obj [("chunk_shape", Json.ofShape (if m.shardShape ≠ [] then m.shardShape else m.chunkShape))])]),
    ("chunk_key_encoding", .obj [("name", .str m.encoding),
      ("configuration", .obj [("separator", .str m.delimiter)])]),
    ("fill_value", fill),
    ("codecs", .arr (if m.shardShape ≠ [] then [shardingCodec m.chunkShape inner] else inner)),
    ("attributes", .obj [])]

/-- metadata.hxx:70-78 `toJson` -/
def toJson (m : Meta) : Res Json :=
  if m.isZarr ∧ m.zarrFormat = 3 then m.toJsonV3
  else if m.isZarr then m.toJsonZarr
  else m.toJsonN5

/-- metadata.hxx:414-443 `checkJson` with `zarrFormat = 2` -/
def checkJson (j : Json) : Res Unit :=
  if (match j.find "order" with | some o => !o.eqStr "C" | none => false) then .throw .runtimeError
  else if (match j.find "zarr_format" with | some z => !z.eqInt 2 | none => false) then
    .throw .runtimeError
  else if (match j.find "filters" with
      | some f => !f.isNull && decide (f.size > 0)
      | none => false) then .throw .runtimeError
  else .ok ()

/-- `map.at(j)` where the JSON value is converted to a string first; `out_of_range` becomes
    `runtime_error` -/
def atOrRuntime {β : Type} (l : List (String × β)) (k : String) : Res β :=
  match assocGet l k with
  | some v => .ok v
  | none => .throw .runtimeError

/-- metadata.hxx:154-169 and 342-356: a fill value; `null` is NaN in zarr v2 and 0 in v3. -/
def readFill (j : Json) (onNull : Dbl) : Res Dbl :=
  match j with
  | .str s =>
    if s = "NaN" then .ok .nan
    else if s = "Infinity" then .ok (.inf false)
    else if s = "-Infinity" then .ok (.inf true)
    else .throw .runtimeError
  | .null => .ok onNull
  | _ => j.getDouble

/-- metadata.hxx:178-187: compressor and options; no compressor object means raw. -/
def readZarrCompressor (opts : Json) : Res (Compressor × Opts) := do
  let id ← if opts.isNull then Res.ok "raw" else (opts.sub "id").bind (·.getStr)
  let compressor ← atOrRuntime Compressor.zarrToCompressor id
  let options ← readZarrOptions compressor opts []
  return (compressor, options)

/-- metadata.hxx:144-188 `fromJsonZarr` on a default-constructed record (66: `isZarr`; 397: encoding
    `default`, no shard shape, no options) -/
def fromJsonZarr (j : Json) : Res Meta := do
  checkJson j
  let dtype ← atOrRuntime Datatype.zarrToDtype (← (← j.sub "dtype").getStr)
  let shape ← Json.sizes (← j.sub "shape").elems
  let chunkShape ← Json.sizes (← j.sub "chunks").elems
  let fill ← readFill (← j.sub "fill_value") .nan
  let delimiter ← match j.find "dimension_separator" with
    | some d => d.getStr
    | none => Res.ok "."
  let (compressor, options) ← readZarrCompressor (← j.sub "compressor")
  return { isZarr := true, zarrFormat := 2, dtype := dtype, shape := shape, chunkShape := chunkShape,
           compressor := compressor, options := options, fillValue := fill, delimiter := delimiter,
           encoding := "default", shardShape := [] }

/-- metadata.hxx:203-246: the compressor, from `compression` or, in old files, `compressionType` -/
def readN5Compressor (j : Json) : Res (Compressor × Opts) :=
  match j.find "compression" with
  | some opts => do
    let type ← match opts.find "type" with
      | some t => t.getStr
      | none => Res.throw .runtimeError
    let compressor ← atOrRuntime Compressor.n5ToCompressor type
    let options ← readN5Options compressor opts []
    return (compressor, options)
  | none => do
    let type ← match j.find "compressionType" with
      | some t => t.getStr
      | none => Res.throw .runtimeError
    let compressor ← atOrRuntime Compressor.n5ToCompressor type
    return (compressor, [("level", .int 5), ("useZlib", .bool false)])

/-- metadata.hxx:191-249 `fromJsonN5`; the delimiter keeps its default (the empty string). -/
def fromJsonN5 (j : Json) : Res Meta := do
  let dtype ← mapAt Datatype.n5ToDtype (← (← j.sub "dataType").getStr)
  let shape ← Json.sizes (← j.sub "dimensions").elems.reverse
  let chunkShape ← Json.sizes (← j.sub "blockSize").elems.reverse
  let (compressor, options) ← readN5Compressor j
  return { isZarr := false, zarrFormat := 2, dtype := dtype, shape := shape, chunkShape := chunkShape,
           compressor := compressor, options := options, fillValue := .zero, delimiter := "",
           encoding := "default", shardShape := [] }

/-- metadata.hxx:331-337: the separator, defaulting to the one of the encoding -/
def separatorOf (cke : Json) (encoding : String) : Res String :=
  match (cke.find "configuration").bind (·.find "separator") with
  | some s => s.getStr
  | none => .ok (if encoding = "v2" then "." else "/")

/-- metadata.hxx:363-374: the first codec called `sharding_indexed` and its configuration -/
def findSharding : List Json → Res (Option Json)
  | [] => .ok none
  | c :: cs => do
    let name ← c.at' "name"
    if name.eqStr "sharding_indexed" then
      let cfg ← c.at' "configuration"
      return some cfg
    else findSharding cs

/-- metadata.hxx:315-378 `fromJsonV3` -/
def fromJsonV3 (j : Json) : Res Meta := do
  let node ← j.at' "node_type"
  if !node.eqStr "array" then .throw .runtimeError
  else
  let dtype ← atOrRuntime Datatype.n5ToDtype (← (← j.at' "data_type").getStr)
  let shape ← Json.sizes (← j.at' "shape").elems
  let grid ← (← (← j.at' "chunk_grid").at' "configuration").at' "chunk_shape"
  let outerShape ← Json.sizes grid.elems
  let cke ← j.at' "chunk_key_encoding"
  let encoding ← (← cke.at' "name").getStr
  let delimiter ← separatorOf cke encoding
  let fill ← readFill (← j.at' "fill_value") .zero
  let codecs ← j.at' "codecs"
  match ← findSharding codecs.elems with
  | some cfg => do
    let chunkShape ← Json.sizes (← cfg.at' "chunk_shape").elems
    let inner ← cfg.at' "codecs"
    let (compressor, options) ← readV3Codecs inner []
    return { isZarr := true, zarrFormat := 3, dtype := dtype, shape := shape, chunkShape := chunkShape,
             compressor := compressor, options := options, fillValue := fill, delimiter := delimiter,
             encoding := encoding, shardShape := outerShape }
  | none => do
    let (compressor, options) ← readV3Codecs codecs []
    return { isZarr := true, zarrFormat := 3, dtype := dtype, shape := shape, chunkShape := outerShape,
             compressor := compressor, options := options, fillValue := fill, delimiter := delimiter,
             encoding := encoding, shardShape := [] }

/-- metadata.hxx:82-98 `fromJson` -/
def fromJson (j : Json) (isZarr : Bool) : Res Meta := do
  let m ←
    if isZarr then (do
      match j.find "zarr_format" with
      | some z =>
        if (← z.getInt) = 3 then fromJsonV3 j else fromJsonZarr j
      | none => fromJsonZarr j)
    else fromJsonN5 j
  checkShapes m
  return m

end Meta

/-- metadata.hxx:480-484: the loop over the axes; `%` by zero is undefined (`||` evaluates it only if the
    shard is not smaller). -/
def shardMultiples : List Nat → List Nat → Res Unit
  | s :: ss, c :: cs =>
    if s < c then .throw .runtimeError
    else if c = 0 then .ub
    else if s % c ≠ 0 then .throw .runtimeError
    else shardMultiples ss cs
  | _, _ => .ok ()

/-- metadata.hxx:447-503 `createDatasetMetadata` -/
def createMeta (dtype : String) (shape chunkShape : List Nat) (asZarr : Bool) (compressor : String)
    (options : Opts) (fill : Dbl) (delimiter : String) (zarrFormat : Int) (encoding : String)
    (shardShape : List Nat) : Res Meta := do
  let dt ← Meta.atOrRuntime Datatype.n5ToDtype dtype
  let comp ← Meta.atOrRuntime Compressor.stringToCompressor compressor
  let opts := defaultOptions comp options asZarr
  if shardShape ≠ [] then (do
    if ¬ (asZarr ∧ zarrFormat = 3) then .throw .runtimeError
    else if shardShape.length ≠ chunkShape.length then .throw .runtimeError
    else shardMultiples shardShape chunkShape)
  let m : Meta := { isZarr := asZarr, zarrFormat := zarrFormat, dtype := dt, shape := shape,
                    chunkShape := chunkShape, compressor := comp, options := opts, fillValue := fill,
                    delimiter := delimiter, encoding := encoding, shardShape := shardShape }
  m.checkShapes
  return m

/-- delimiter, format and encoding, factory.hxx:64-66 -/
structure ChunkConfig where
  delimiter : String
  zarrFormat : Int
  encoding : String
  deriving DecidableEq, Repr

/-- factory.hxx:64-66: before anything is read -/
def ChunkConfig.initial : ChunkConfig := ⟨".", 2, "default"⟩

/-- factory.hxx:18-56 `getZarrChunkConfig`, given the parsed `zarr.json` and `.zarray` of the dataset
    (`none`: no such file) -/
def getZarrChunkConfig (v3 v2 : Option Json) : Res ChunkConfig :=
  match v3 with
  | some j =>
    match j.find "chunk_key_encoding" with
    | some cke => do
      let encoding ← cke.valueStr "name" "default"
      let delimiter ← Meta.separatorOf cke encoding
      return ⟨delimiter, 3, encoding⟩
    | none => .ok ⟨"/", 3, "default"⟩
  | none =>
    match v2 with
    | some j =>
      match j.find "dimension_separator" with
      | some d => do return ⟨← d.getStr, 2, "default"⟩
      | none => .ok .initial
    | none => .ok .initial

/-- The integer data types and their ranges. -/
def Datatype.range : Datatype → Option (Int × Int)
  | .int8 => some (-2 ^ 7, 2 ^ 7) | .int16 => some (-2 ^ 15, 2 ^ 15)
  | .int32 => some (-2 ^ 31, 2 ^ 31) | .int64 => some (-2 ^ 63, 2 ^ 63)
  | .uint8 => some (0, 2 ^ 8) | .uint16 => some (0, 2 ^ 16)
  | .uint32 => some (0, 2 ^ 32) | .uint64 => some (0, 2 ^ 64)
  | _ => none

/-- The fill value of a dataset: `static_cast<T>(metadata.fillValue)`, dataset.hxx:176.  For an
    integer type an integer; for a floating point type the given double, rounded to the type (the real part of a complex
    number, whose imaginary part is 0). -/
inductive FillVal where
  | int (i : Int)
  | dbl (d : Dbl)
  deriving DecidableEq, Repr

/-- dataset.hxx:176: `static_cast<T>(metadata.fillValue)` -/
def Datatype.castFill (dt : Datatype) (d : Dbl) : Res FillVal :=
  match dt.range with
  | some (lo, hi) => do return .int (← d.toInt lo hi)
  | none => do
    match dt with
    | .float32 | .complex64 => return .dbl (← d.toFloat)
    | _ => return .dbl d

end Z5
