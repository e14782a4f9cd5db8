import Verif.Model.Json

/-!
# Model of `types/types.hxx`: data types, compressors and compression options

The build with every compressor enabled (`WITH_BLOSC` … `WITH_ZSTD` defined).
-/

namespace Z5

/-- types/types.hxx:29-34 -/
inductive Datatype where
  | int8 | int16 | int32 | int64
  | uint8 | uint16 | uint32 | uint64
  | float32 | float64
  | complex64 | complex128 | complex256
  deriving DecidableEq, Repr

/-- types/types.hxx:79-99 -/
inductive Compressor where
  | raw | blosc | zlib | bzip2 | lz4 | xz | zstd
  deriving DecidableEq, Repr

/-- `std::map::at` -/
def mapAt {β : Type} (l : List (String × β)) (k : String) : Res β :=
  match assocGet l k with
  | some v => .ok v
  | none => .throw .outOfRange

/-- `std::map::at` for enumeration keys -/
def enumAt {α β : Type} [DecidableEq α] : List (α × β) → α → Res β
  | [], _ => .throw .outOfRange
  | (a, b) :: l, k => if a = k then .ok b else enumAt l k

namespace Datatype

/-- types/types.hxx:40-46 `zarrToDtype` -/
def zarrToDtype : List (String × Datatype) :=
  [("|i1", int8), ("<i2", int16), ("<i4", int32), ("<i8", int64),
   ("|u1", uint8), ("<u2", uint16), ("<u4", uint32), ("<u8", uint64),
   ("<f4", float32), ("<f8", float64),
   ("<c8", complex64), ("<c16", complex128), ("<c32", complex256)]

/-- types/types.hxx:48-55 `dtypeToZarr` -/
def dtypeToZarr : List (Datatype × String) :=
  [(int8, "|i1"), (int16, "<i2"), (int32, "<i4"), (int64, "<i8"),
   (uint8, "|u1"), (uint16, "<u2"), (uint32, "<u4"), (uint64, "<u8"),
   (float32, "<f4"), (float64, "<f8"),
   (complex64, "<c8"), (complex128, "<c16"), (complex256, "<c32")]

/-- types/types.hxx:57-62 `n5ToDtype` -/
def n5ToDtype : List (String × Datatype) :=
  [("int8", int8), ("int16", int16), ("int32", int32), ("int64", int64),
   ("uint8", uint8), ("uint16", uint16), ("uint32", uint32), ("uint64", uint64),
   ("float32", float32), ("float64", float64)]

/-- types/types.hxx:64-69 `dtypeToN5` -/
def dtypeToN5 : List (Datatype × String) :=
  [(int8, "int8"), (int16, "int16"), (int32, "int32"), (int64, "int64"),
   (uint8, "uint8"), (uint16, "uint16"), (uint32, "uint32"), (uint64, "uint64"),
   (float32, "float32"), (float64, "float64")]

/-- types/types.hxx:432-443 `datatypeSize` -/
def size : Datatype → Nat
  | int8 => 1 | uint8 => 1
  | int16 => 2 | uint16 => 2
  | int32 => 4 | uint32 => 4 | float32 => 4
  | int64 => 8 | uint64 => 8 | float64 => 8
  | complex64 => 8
  | complex128 => 16
  | complex256 => 32

end Datatype

namespace Compressor

/-- types/types.hxx:107-132 `stringToCompressor` -/
def stringToCompressor : List (String × Compressor) :=
  [("raw", raw), ("blosc", blosc), ("zlib", zlib), ("gzip", zlib), ("bzip2", bzip2), ("lz4", lz4),
   ("xz", xz), ("zstd", zstd)]

/-- types/types.hxx:134-155 `zarrToCompressor` -/
def zarrToCompressor : List (String × Compressor) :=
  [("raw", raw), ("blosc", blosc), ("zlib", zlib), ("gzip", zlib), ("bz2", bzip2), ("lz4", lz4),
   ("zstd", zstd)]

/-- types/types.hxx:157-177 `compressorToZarr` -/
def compressorToZarr : List (Compressor × String) :=
  [(raw, "raw"), (blosc, "blosc"), (zlib, "zlib"), (bzip2, "bz2"), (lz4, "lz4"), (zstd, "zstd")]

/-- types/types.hxx:179-202 `n5ToCompressor` -/
def n5ToCompressor : List (String × Compressor) :=
  [("raw", raw), ("gzip", zlib), ("bzip2", bzip2), ("xz", xz), ("lz4", lz4), ("blosc", blosc),
   ("zstd", zstd)]

/-- types/types.hxx:204-226 `compressorToN5` -/
def compressorToN5 : List (Compressor × String) :=
  [(raw, "raw"), (zlib, "gzip"), (bzip2, "bzip2"), (xz, "xz"), (lz4, "lz4"), (blosc, "blosc"),
   (zstd, "zstd")]

end Compressor

/-- types/types.hxx:233: `std::variant<int, bool, std::string>` -/
inductive OptVal where
  | int (i : Int)
  | bool (b : Bool)
  | str (s : String)
  deriving DecidableEq, Repr

/-- types/types.hxx:233 `CompressionOptions` -/
abbrev Opts := List (String × OptVal)

namespace Opts

/-- `std::get<int>(options.at(k))`: `out_of_range` or `bad_variant_access` -/
def int (o : Opts) (k : String) : Res Int := do
  match ← mapAt o k with
  | .int i => return i
  | _ => .throw .typeError

/-- `std::get<bool>(options.at(k))` -/
def bool (o : Opts) (k : String) : Res Bool := do
  match ← mapAt o k with
  | .bool b => return b
  | _ => .throw .typeError

/-- `std::get<std::string>(options.at(k))` -/
def str (o : Opts) (k : String) : Res String := do
  match ← mapAt o k with
  | .str s => return s
  | _ => .throw .typeError

/-- `if(options.find(k) == options.end()) options[k] = v` -/
def orElse (o : Opts) (k : String) (v : OptVal) : Opts :=
  match assocGet o k with
  | none => assocSet o k v
  | some _ => o

end Opts

/-- What a compressor object keeps of the options: the `init` functions of the classes in
    `compression/`. -/
inductive Settings where
  | raw
  | blosc (codec : String) (level shuffle blocksize nthreads : Int)
  | zlib (level : Int) (useZlib : Bool)
  | bzip2 (level : Int)
  | lz4 (level : Int)
  | xz (level : Int)
  | zstd (level : Int)
  deriving DecidableEq, Repr

/-- dataset.hxx:187-216 `init_compressor` with blosc_compressor.hxx:79-93, zlib_compressor.hxx:228-231,
    bzip2_compressor.hxx:112, lz4_compressor.hxx:71, xz_compressor.hxx:143, zstd_compressor.hxx:65. -/
def initCompressor (c : Compressor) (o : Opts) : Res Settings :=
  match c with
  | .raw => .ok .raw
  | .blosc => do
    let level ← o.int "level"
    let shuffle ← o.int "shuffle"
    let codec ← o.str "codec"
    let blocksize ← o.int "blocksize"
    match assocGet o "nthreads" with
    | none => return .blosc codec level shuffle blocksize 1
    | some (.int n) => return .blosc codec level shuffle blocksize n
    | some _ => .throw .typeError
  | .zlib => do
    let level ← o.int "level"
    let useZlib ← o.bool "useZlib"
    return .zlib level useZlib
  | .bzip2 => do return .bzip2 (← o.int "level")
  | .lz4 => do return .lz4 (← o.int "level")
  | .xz => do return .xz (← o.int "level")
  | .zstd => do return .zstd (← o.int "level")

open Json in
/-- types/types.hxx:235-266 `readZarrCompressionOptionsFromJson` -/
def readZarrOptions (c : Compressor) (j : Json) (o : Opts) : Res Opts :=
  match c with
  | .blosc => do
    let o := assocSet o "codec" (.str (← (← j.sub "cname").getStr))
    let o := assocSet o "level" (.int (← (← j.sub "clevel").getInt))
    let o := assocSet o "shuffle" (.int (← (← j.sub "shuffle").getInt))
    match j.find "blocksize" with
    | none => return assocSet o "blocksize" (.int 0)
    | some b => return assocSet o "blocksize" (.int (← b.getInt))
  | .zlib => do
    let o := assocSet o "level" (.int (← (← j.sub "level").getInt))
    let id ← (← j.sub "id").getStr
    return assocSet o "useZlib" (.bool (decide (id = "zlib")))
  | .bzip2 => do return assocSet o "level" (.int (← (← j.sub "level").getInt))
  | .lz4 => do return assocSet o "level" (.int (← (← j.sub "acceleration").getInt))
  | .zstd => do return assocSet o "level" (.int (← (← j.sub "level").getInt))
  | _ => .ok o

/-- types/types.hxx:269-306 `writeZarrCompressionOptionsToJson` -/
def writeZarrOptions (c : Compressor) (o : Opts) : Res Json :=
  match c with
  | .raw => .ok .null
  | _ =>
    match enumAt Compressor.compressorToZarr c with
    | .throw _ => .throw .runtimeError
    | .ub => .ub
    | .ok id =>
      match c with
      | .blosc => do
        let codec ← o.str "codec"
        let level ← o.int "level"
        let shuffle ← o.int "shuffle"
        let blocksize ← o.int "blocksize"
        return .obj [("id", .str id), ("cname", .str codec), ("clevel", .int level),
                     ("shuffle", .int shuffle), ("blocksize", .int blocksize)]
      | .zlib => do
        let useZlib ← o.bool "useZlib"
        let level ← o.int "level"
        return .obj [("id", .str (if useZlib then "zlib" else "gzip")), ("level", .int level)]
      | .bzip2 => do return .obj [("id", .str id), ("level", .int (← o.int "level"))]
      | .lz4 => do return .obj [("id", .str id), ("acceleration", .int (← o.int "level"))]
      | .zstd => do return .obj [("id", .str id), ("level", .int (← o.int "level"))]
      | _ => .ok (.obj [("id", .str id)])

/-- types/types.hxx:309-345 `readN5CompressionOptionsFromJson` -/
def readN5Options (c : Compressor) (j : Json) (o : Opts) : Res Opts :=
  match c with
  | .zlib => do
    let o := assocSet o "level" (.int (← (← j.sub "level").getInt))
    return assocSet o "useZlib" (.bool false)
  | .bzip2 => do return assocSet o "level" (.int (← (← j.sub "blockSize").getInt))
  | .xz => do return assocSet o "level" (.int (← (← j.sub "preset").getInt))
  | .lz4 => do return assocSet o "level" (.int (← (← j.sub "blockSize").getInt))
  | .blosc => do
    let o := assocSet o "codec" (.str (← (← j.sub "cname").getStr))
    let o := assocSet o "level" (.int (← (← j.sub "clevel").getInt))
    let o := assocSet o "shuffle" (.int (← (← j.sub "shuffle").getInt))
    let blocksize ← match j.find "blocksize" with
      | none => Res.ok 0
      | some b => b.getInt
    let nthreads ← match j.find "nthreads" with
      | none => Res.ok 1
      | some b => b.getInt
    return assocSet (assocSet o "blocksize" (.int blocksize)) "nthreads" (.int nthreads)
  | .zstd => do return assocSet o "level" (.int (← (← j.sub "level").getInt))
  | .raw => .ok o

/-- types/types.hxx:348-385 `writeN5CompressionOptionsToJson` -/
def writeN5Options (c : Compressor) (o : Opts) : Res Json :=
  match enumAt Compressor.compressorToN5 c with
  | .throw _ => .throw .runtimeError
  | .ub => .ub
  | .ok type =>
    match c with
    | .zlib => do return .obj [("type", .str type), ("level", .int (← o.int "level"))]
    | .bzip2 => do return .obj [("type", .str type), ("blockSize", .int (← o.int "level"))]
    | .xz => do return .obj [("type", .str type), ("preset", .int (← o.int "level"))]
    | .lz4 => do return .obj [("type", .str type), ("blockSize", .int (← o.int "level"))]
    | .blosc => do
      let codec ← o.str "codec"
      let level ← o.int "level"
      let shuffle ← o.int "shuffle"
      let blocksize ← o.int "blocksize"
      let nthreads ← o.int "nthreads"
      return .obj [("type", .str type), ("cname", .str codec), ("clevel", .int level),
                   ("shuffle", .int shuffle), ("blocksize", .int blocksize),
                   ("nthreads", .int nthreads)]
    | .zstd => do return .obj [("type", .str type), ("level", .int (← o.int "level"))]
    | .raw => .ok (.obj [("type", .str type)])

/-- types/types.hxx:388-426 `defaultCompressionOptions` -/
def defaultOptions (c : Compressor) (o : Opts) (isZarr : Bool) : Opts :=
  match c with
  | .blosc =>
    ((((o.orElse "codec" (.str "lz4")).orElse "level" (.int 5)).orElse "shuffle" (.int 1)).orElse
      "blocksize" (.int 0)).orElse "nthreads" (.int 1)
  | .zlib => (o.orElse "level" (.int 5)).orElse "useZlib" (.bool isZarr)
  | .bzip2 => o.orElse "level" (.int 5)
  | .lz4 => o.orElse "level" (.int 6)
  | .xz => o.orElse "level" (.int 6)
  | .zstd => o.orElse "level" (.int 3)
  | .raw => o

/-- types/types.hxx:445-447 `bloscShuffleToString` -/
def shuffleToString (s : Int) : String :=
  if s = 0 then "noshuffle" else if s = 2 then "bitshuffle" else "shuffle"

/-- types/types.hxx:448-456 `bloscShuffleFromJson` -/
def shuffleFromJson (j : Json) : Res Int :=
  match j with
  | .int _ => j.getInt
  | _ => do
    let v ← j.getStr
    return if v = "noshuffle" then 0 else if v = "bitshuffle" then 2 else 1

/-- types/types.hxx:464-467: the `bytes` codec -/
def bytesCodec : Json :=
  .obj [("name", .str "bytes"), ("configuration", .obj [("endian", .str "little")])]

/-- types/types.hxx:459-507 `writeV3CodecsToJson`; `typesize` is cast to `int`. -/
def writeV3Codecs (c : Compressor) (o : Opts) (typesize : Nat) : Res (List Json) :=
  match c with
  | .raw => .ok [bytesCodec]
  | .zlib => do
    let level ← o.int "level"
    return [bytesCodec, .obj [("name", .str "gzip"), ("configuration", .obj [("level", .int level)])]]
  | .zstd => do
    let level ← o.int "level"
    return [bytesCodec, .obj [("name", .str "zstd"),
      ("configuration", .obj [("level", .int level), ("checksum", .bool false)])]]
  | .blosc => do
    let codec ← o.str "codec"
    let level ← o.int "level"
    let shuffle ← o.int "shuffle"
    let blocksize ← o.int "blocksize"
    return [bytesCodec, .obj [("name", .str "blosc"),
      ("configuration", .obj [("cname", .str codec), ("clevel", .int level),
        ("shuffle", .str (shuffleToString shuffle)), ("typesize", .int typesize),
        ("blocksize", .int blocksize)])]]
  | _ => .throw .runtimeError

/-- types/types.hxx:516-548: the loop of `readV3CodecsFromJson` -/
def readV3Loop : List Json → Compressor × Opts → Res (Compressor × Opts)
  | [], s => .ok s
  | c :: cs, (comp, o) => do
    let name ← (← c.at' "name").getStr
    if name = "bytes" then readV3Loop cs (comp, o)
    else
      let cfg := (c.find "configuration").getD (.obj [])
      if name = "gzip" then do
        let level ← cfg.valueInt "level" 5
        readV3Loop cs (.zlib, assocSet (assocSet o "level" (.int level)) "useZlib" (.bool false))
      else if name = "zstd" then do
        let level ← cfg.valueInt "level" 3
        readV3Loop cs (.zstd, assocSet o "level" (.int level))
      else if name = "blosc" then do
        let codec ← cfg.valueStr "cname" "lz4"
        let level ← cfg.valueInt "clevel" 5
        let shuffle ← match cfg.find "shuffle" with
          | some s => shuffleFromJson s
          | none => Res.ok 1
        let blocksize ← cfg.valueInt "blocksize" 0
        readV3Loop cs (.blosc, assocSet (assocSet (assocSet (assocSet o "codec" (.str codec))
          "level" (.int level)) "shuffle" (.int shuffle)) "blocksize" (.int blocksize))
      else .throw .runtimeError

/-- types/types.hxx:510-549 `readV3CodecsFromJson` -/
def readV3Codecs (j : Json) (o : Opts) : Res (Compressor × Opts) := readV3Loop j.elems (.raw, o)

/-- types/types.hxx:553-571 `jsonToCompressionType` (`items()` gives array elements their index as
    key, so only objects are modelled; numbers are reduced to `int`). -/
def jsonToOptions : List (String × Json) → Opts → Res Opts
  | [], o => .ok o
  | (k, v) :: l, o =>
    match v with
    | .bool b => jsonToOptions l (assocSet o k (.bool b))
    | .int i => jsonToOptions l (assocSet o k (.int (Int.bmod i (2 ^ 32))))
    | .str s => jsonToOptions l (assocSet o k (.str s))
    | _ => .throw .runtimeError

/-- types/types.hxx:573-586 `compressionTypeToJson` -/
def optionsToJson : Opts → List (String × Json) → List (String × Json)
  | [], j => j
  | (k, v) :: l, j =>
    optionsToJson l (assocSet j k (match v with
      | .int i => .int i
      | .bool b => .bool b
      | .str s => .str s))

end Z5
