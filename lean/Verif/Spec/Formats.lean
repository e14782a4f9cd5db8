import Verif.Spec.Metadata

/-!
# The metadata documents of zarr v2, zarr v3 and N5 (C59)

What a document says about an array, written after the specifications of the formats
(zarr-specs `v2.0` and `v3.0`, the N5 README), not after the code.  Documents may have further keys and may
leave out what has a default.
-/

namespace Z5

/-- What a document says about an array. -/
structure ArrayDesc where
  dtype : Datatype
  shape : List Nat
  chunks : List Nat
  /-- the shape of shards; empty if there are none -/
  shards : List Nat
  compression : Settings
  /-- `none`: no fill value is defined -/
  fill : Option Dbl
  separator : String
  /-- the chunk key encoding of zarr v3: `default` or `v2` -/
  encoding : String

/-- The numbers fit the C++ types. -/
structure ArrayDesc.Fits (a : ArrayDesc) : Prop where
  axes : a.shape.length = a.chunks.length
  shape : ∀ n ∈ a.shape, n < 2 ^ 64
  chunks : ∀ n ∈ a.chunks, n < 2 ^ 64
  shards : ∀ n ∈ a.shards, n < 2 ^ 64

/-- A number for a setting -/
def Json.IsInt (j : Option Json) (i : Int) : Prop := j = some (.int i) ∧ -2 ^ 31 ≤ i ∧ i < 2 ^ 31

/-- A text -/
def Json.IsStr (j : Option Json) (s : String) : Prop := j = some (.str s)

/-- Fill values: numbers, and texts for what JSON has no numbers for; an integer stands for the closest number of 64
    bit floating point. -/
inductive Json.IsFill : Option Json → Option Dbl → Prop where
  | int (i : Int) : IsFill (some (.int i)) (some (.ofInt i))
  | float (neg : Bool) (u : Nat) : IsFill (some (.float (.fin neg u))) (some (.fin neg u))
  | nan : IsFill (some (.str "NaN")) (some .nan)
  | inf : IsFill (some (.str "Infinity")) (some (.inf false))
  | negInf : IsFill (some (.str "-Infinity")) (some (.inf true))

/-! ### zarr v2 -/

/-- The compressors of numcodecs that the library supports -/
inductive ZarrV2.Compression : Json → Settings → Prop where
  | raw : Compression .null .raw
  | zlib {c : Json} {l : Int} : Json.IsStr (c.find "id") "zlib" → Json.IsInt (c.find "level") l →
      Compression c (.zlib l true)
  | gzip {c : Json} {l : Int} : Json.IsStr (c.find "id") "gzip" → Json.IsInt (c.find "level") l →
      Compression c (.zlib l false)
  | bz2 {c : Json} {l : Int} : Json.IsStr (c.find "id") "bz2" → Json.IsInt (c.find "level") l → Compression c (.bzip2 l)
  | lz4 {c : Json} {l : Int} : Json.IsStr (c.find "id") "lz4" → Json.IsInt (c.find "acceleration") l →
      Compression c (.lz4 l)
  | zstd {c : Json} {l : Int} : Json.IsStr (c.find "id") "zstd" → Json.IsInt (c.find "level") l → Compression c (.zstd l)
  | blosc {c : Json} {cname : String} {l s b : Int} : Json.IsStr (c.find "id") "blosc" →
      Json.IsStr (c.find "cname") cname → Json.IsInt (c.find "clevel") l → Json.IsInt (c.find "shuffle") s →
      (Json.IsInt (c.find "blocksize") b ∨ c.find "blocksize" = none ∧ b = 0) → Compression c (.blosc cname l s b 1)

/-- `.zarray` -/
structure ZarrV2.Describes (j : Json) (a : ArrayDesc) : Prop where
  format : j.find "zarr_format" = some (.int 2)
  dtype : Json.IsStr (j.find "dtype") (zarrTypeName a.dtype)
  shape : Json.IsShape (j.find "shape") a.shape
  chunks : Json.IsShape (j.find "chunks") a.chunks
  order : Json.IsStr (j.find "order") "C"
  filters : j.find "filters" = some .null ∨ j.find "filters" = some (.arr [])
  compression : ∃ c, j.find "compressor" = some c ∧ ZarrV2.Compression c a.compression
  fill : Json.IsFill (j.find "fill_value") a.fill ∨ j.find "fill_value" = some .null ∧ a.fill = none
  separator : Json.IsStr (j.find "dimension_separator") a.separator ∨
    j.find "dimension_separator" = none ∧ a.separator = "."
  noShards : a.shards = []
  encoding : a.encoding = "default"

/-! ### N5 -/

/-- The compression types of N5 -/
inductive N5.Compression : Json → Settings → Prop where
  | raw {c : Json} : Json.IsStr (c.find "type") "raw" → Compression c .raw
  | gzip {c : Json} {l : Int} : Json.IsStr (c.find "type") "gzip" → Json.IsInt (c.find "level") l →
      (c.find "useZlib" = none ∨ c.find "useZlib" = some (.bool false)) → Compression c (.zlib l false)
  | bzip2 {c : Json} {l : Int} : Json.IsStr (c.find "type") "bzip2" → Json.IsInt (c.find "blockSize") l →
      Compression c (.bzip2 l)
  | xz {c : Json} {l : Int} : Json.IsStr (c.find "type") "xz" → Json.IsInt (c.find "preset") l → Compression c (.xz l)
  | lz4 {c : Json} {l : Int} : Json.IsStr (c.find "type") "lz4" → Json.IsInt (c.find "blockSize") l →
      Compression c (.lz4 l)
  | zstd {c : Json} {l : Int} : Json.IsStr (c.find "type") "zstd" → Json.IsInt (c.find "level") l →
      Compression c (.zstd l)
  | blosc {c : Json} {cname : String} {l s b n : Int} : Json.IsStr (c.find "type") "blosc" →
      Json.IsStr (c.find "cname") cname → Json.IsInt (c.find "clevel") l → Json.IsInt (c.find "shuffle") s →
      (Json.IsInt (c.find "blocksize") b ∨ c.find "blocksize" = none ∧ b = 0) →
      (Json.IsInt (c.find "nthreads") n ∨ c.find "nthreads" = none ∧ n = 1) → Compression c (.blosc cname l s b n)

/-- `attributes.json` of a dataset; the first axis of N5 is the one that varies fastest.  Fill values are not part of
    the format, they are 0. -/
structure N5.Describes (j : Json) (a : ArrayDesc) : Prop where
  dtype : ∃ s, plainTypeName a.dtype = some s ∧ Json.IsStr (j.find "dataType") s
  shape : Json.IsShape (j.find "dimensions") a.shape.reverse
  chunks : Json.IsShape (j.find "blockSize") a.chunks.reverse
  compression : ∃ c, j.find "compression" = some c ∧ N5.Compression c a.compression
  fill : a.fill = some .zero
  noShards : a.shards = []

/-- `attributes.json` of datasets written before N5 had compression parameters: the name of the compression only.  The
    levels, which matter for writing only, are the library's choice. -/
structure N5.DescribesOld (j : Json) (a : ArrayDesc) : Prop where
  dtype : ∃ s, plainTypeName a.dtype = some s ∧ Json.IsStr (j.find "dataType") s
  shape : Json.IsShape (j.find "dimensions") a.shape.reverse
  chunks : Json.IsShape (j.find "blockSize") a.chunks.reverse
  noCompression : j.find "compression" = none
  compression : ∃ t, Json.IsStr (j.find "compressionType") t ∧
    (t, a.compression) ∈ [("raw", Settings.raw), ("gzip", .zlib 5 false), ("bzip2", .bzip2 5), ("xz", .xz 5)]
  fill : a.fill = some .zero
  noShards : a.shards = []

/-! ### zarr v3 -/

/-- The number of bytes of an element -/
def elementBytes : Datatype → Nat
  | .int8 | .uint8 => 1
  | .int16 | .uint16 => 2
  | .int32 | .uint32 | .float32 => 4
  | .int64 | .uint64 | .float64 | .complex64 => 8
  | .complex128 => 16
  | .complex256 => 32

/-- Elements are stored in little endian; one byte has no order. -/
def ZarrV3.Bytes (c : Json) (dt : Datatype) : Prop :=
  Json.IsStr (c.find "name") "bytes" ∧
  (Json.IsStr (c.path ["configuration", "endian"]) "little" ∨
    elementBytes dt = 1 ∧ c.path ["configuration", "endian"] = none)

/-- The names of the shuffle modes of blosc -/
def ZarrV3.shuffleName : Int → Option String
  | 0 => some "noshuffle"
  | 1 => some "shuffle"
  | 2 => some "bitshuffle"
  | _ => none

/-- The codecs of the chunks: from elements to bytes, and at most one compressor -/
inductive ZarrV3.Codecs (dt : Datatype) : List Json → Settings → Prop where
  | raw {e : Json} : ZarrV3.Bytes e dt → Codecs dt [e] .raw
  | gzip {e c : Json} {l : Int} : ZarrV3.Bytes e dt → Json.IsStr (c.find "name") "gzip" →
      Json.IsInt (c.path ["configuration", "level"]) l → Codecs dt [e, c] (.zlib l false)
  | zstd {e c : Json} {l : Int} : ZarrV3.Bytes e dt → Json.IsStr (c.find "name") "zstd" →
      Json.IsInt (c.path ["configuration", "level"]) l → Codecs dt [e, c] (.zstd l)
  | blosc {e c : Json} {cname : String} {l s b : Int} : ZarrV3.Bytes e dt → Json.IsStr (c.find "name") "blosc" →
      Json.IsStr (c.path ["configuration", "cname"]) cname → Json.IsInt (c.path ["configuration", "clevel"]) l →
      (∃ n, ZarrV3.shuffleName s = some n ∧ Json.IsStr (c.path ["configuration", "shuffle"]) n) →
      (c.path ["configuration", "typesize"] = some (.int (elementBytes dt)) ∨
        s = 0 ∧ c.path ["configuration", "typesize"] = none) →
      Json.IsInt (c.path ["configuration", "blocksize"]) b → Codecs dt [e, c] (.blosc cname l s b 1)

/-- The codecs of the index of a shard: little endian with a checksum -/
def ZarrV3.IndexCodecs : Option Json → Prop
  | some (.arr [e, c]) => Json.IsStr (e.find "name") "bytes" ∧
      Json.IsStr (e.path ["configuration", "endian"]) "little" ∧ Json.IsStr (c.find "name") "crc32c"
  | _ => False

/-- The codecs of an array with chunks, or with shards of chunks whose index is at the end -/
inductive ZarrV3.Storage (a : ArrayDesc) : List Json → Prop where
  | chunks {l : List Json} : a.shards = [] → ZarrV3.Codecs a.dtype l a.compression → Storage a l
  | shards {c : Json} {l : List Json} : a.shards ≠ [] → Json.IsStr (c.find "name") "sharding_indexed" →
      Json.IsShape (c.path ["configuration", "chunk_shape"]) a.chunks →
      c.path ["configuration", "codecs"] = some (.arr l) → ZarrV3.Codecs a.dtype l a.compression →
      ZarrV3.IndexCodecs (c.path ["configuration", "index_codecs"]) →
      (Json.IsStr (c.path ["configuration", "index_location"]) "end" ∨
        c.path ["configuration", "index_location"] = none) → Storage a [c]

/-- `zarr.json` of an array -/
structure ZarrV3.Describes (j : Json) (a : ArrayDesc) : Prop where
  format : j.find "zarr_format" = some (.int 3)
  node : Json.IsStr (j.find "node_type") "array"
  dtype : ∃ s, plainTypeName a.dtype = some s ∧ Json.IsStr (j.find "data_type") s
  shape : Json.IsShape (j.find "shape") a.shape
  grid : Json.IsStr (j.path ["chunk_grid", "name"]) "regular"
  gridShape : Json.IsShape (j.path ["chunk_grid", "configuration", "chunk_shape"])
    (if a.shards = [] then a.chunks else a.shards)
  encoding : Json.IsStr (j.path ["chunk_key_encoding", "name"]) a.encoding
  separator : Json.IsStr (j.path ["chunk_key_encoding", "configuration", "separator"]) a.separator ∨
    j.path ["chunk_key_encoding", "configuration", "separator"] = none ∧
      (a.encoding = "default" ∧ a.separator = "/" ∨ a.encoding = "v2" ∧ a.separator = ".")
  fill : Json.IsFill (j.find "fill_value") a.fill
  codecs : ∃ l, j.find "codecs" = some (.arr l) ∧ ZarrV3.Storage a l

/-! ### What may be accepted -/

/-- What the library insists on in a zarr v2 document that it accepts: the rest of the format is not supported, so
    it must be refused. -/
structure V2Accepted (j : Json) (m : Meta) : Prop where
  format : m.zarrFormat = 2 ∧ ∀ z, j.find "zarr_format" = some z → z.eqInt 2 = true
  order : ∀ o, j.find "order" = some o → o = .str "C"
  filters : ∀ f, j.find "filters" = some f → f = .null ∨ f.size = 0
  dtype : j.find "dtype" = some (.str (zarrTypeName m.dtype))
  fill : ∃ f, j.find "fill_value" = some f ∧ ∀ s, f = .str s → s = "NaN" ∨ s = "Infinity" ∨ s = "-Infinity"
  compressor : ∃ c, j.find "compressor" = some c ∧ (c = .null ∨ ∃ id, c.find "id" = some (.str id) ∧
    id ∈ ["raw", "blosc", "zlib", "gzip", "bz2", "lz4", "zstd"])
  shards : m.shardShape = []

/-- What the library insists on in a zarr v3 document that it accepts -/
structure V3Accepted (j : Json) (m : Meta) : Prop where
  format : m.zarrFormat = 3
  node : j.find "node_type" = some (.str "array")
  dtype : ∃ s, plainTypeName m.dtype = some s ∧ j.find "data_type" = some (.str s)
  encoding : j.path ["chunk_key_encoding", "name"] = some (.str m.encoding)
  fill : ∃ f, j.find "fill_value" = some f ∧ ∀ s, f = .str s → s = "NaN" ∨ s = "Infinity" ∨ s = "-Infinity"
  codecs : ∃ l, j.find "codecs" = some l ∧
    ((∀ c ∈ l.elems, ∃ n ∈ ["bytes", "gzip", "zstd", "blosc"], c.find "name" = some (.str n)) ∧ m.shardShape = [] ∨
     ∃ s ∈ l.elems, s.find "name" = some (.str "sharding_indexed") ∧ ∃ i, s.path ["configuration", "codecs"] = some i ∧
       ∀ c ∈ i.elems, ∃ n ∈ ["bytes", "gzip", "zstd", "blosc"], c.find "name" = some (.str n))

/-! ### The records of the library -/

/-- A record holds what a document says: the compressor is set up as said, and the fill value is the one said, if
    one is.  The encoding and the separator matter for zarr only. -/
structure Meta.Holds (m : Meta) (a : ArrayDesc) : Prop where
  dtype : m.dtype = a.dtype
  shape : m.shape = a.shape
  chunks : m.chunkShape = a.chunks
  shards : m.shardShape = a.shards
  compression : initCompressor m.compressor m.options = .ok a.compression
  fill : ∀ d, a.fill = some d → m.fillValue = d
  separator : m.isZarr = true → m.delimiter = a.separator
  encoding : m.isZarr = true → m.encoding = a.encoding

/-- What an N5 document can say about compressor settings: gzip but not zlib encoding. -/
def Settings.asN5 : Settings → Settings
  | .zlib l _ => .zlib l false
  | s => s

end Z5
