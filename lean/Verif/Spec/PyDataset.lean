import Verif.Spec.Formats
import Verif.Spec.Factory
import Verif.Model.PyDataset

/-!
# What is asked of `create_dataset` in Python (C60, C61)

Stated in terms of the arguments, as documented.
-/

namespace Z5

/-- A document of one of the formats describes an array. -/
def Layout.Describes : Layout → Json → ArrayDesc → Prop
  | .v2 => ZarrV2.Describes
  | .v3 => ZarrV3.Describes
  | .n5 => N5.Describes

/-- The shape is given, or that of the data. -/
def PyCreateArgs.AsksShape (a : PyCreateArgs) (s : List Nat) : Prop :=
  (∀ s', a.shape = some s' → s' = s) ∧ (∀ s' t, a.data = some (s', t) → s' = s) ∧ (a.shape ≠ none ∨ a.data ≠ none)

/-- The data type is given, or that of the data. -/
def PyCreateArgs.AsksType (a : PyCreateArgs) (dt : Datatype) : Prop :=
  (∀ t, a.dtype = some t → plainTypeName dt = some t) ∧ (∀ s t, a.data = some (s, t) → plainTypeName dt = some t) ∧
  (a.dtype ≠ none ∨ a.data ≠ none)

/-- The default for chunks: each axis of them has the length `d` that makes up about 64³ elements. -/
def defaultLength (axes d : Nat) : Prop :=
  (2 * d - 1) ^ axes ≤ 2 ^ axes * 64 ^ 3 ∧ 2 ^ axes * 64 ^ 3 < (2 * d + 1) ^ axes

/-- The chunks are those given or default chunks; they are limited to the shape. -/
def PyCreateArgs.AsksChunks (a : PyCreateArgs) (shape chunks : List Nat) : Prop :=
  (∃ c, a.chunks = some c ∧ c.length = shape.length ∧ chunks = List.zipWith min c shape) ∨
  (a.chunks = none ∧ ∃ d, defaultLength shape.length d ∧ chunks = shape.map (min d))

/-- A keyword argument with a number, or its default -/
def IntOption (o : PyDict) (k : String) (dflt i : Int) : Prop :=
  assocGet o k = some (.int i) ∧ -2 ^ 31 ≤ i ∧ i < 2 ^ 31 ∨ assocGet o k = none ∧ i = dflt

/-- A keyword argument with a text, or its default -/
def StrOption (o : PyDict) (k : String) (dflt s : String) : Prop :=
  assocGet o k = some (.str s) ∨ assocGet o k = none ∧ s = dflt

/-- No keyword arguments other than these -/
def OnlyOptions (o : PyDict) (ks : List String) : Prop := ∀ k v, assocGet o k = some v → k ∈ ks

/-- What is asked for with a compressor and its options in a format -/
inductive Asked : Layout → String → PyDict → Settings → Prop where
  | raw {L : Layout} {o : PyDict} : OnlyOptions o [] → Asked L "raw" o .raw
  | zlib {o : PyDict} {l : Int} : OnlyOptions o ["level"] → IntOption o "level" 5 l → Asked .v2 "zlib" o (.zlib l true)
  | gzip {L : Layout} {o : PyDict} {l : Int} : OnlyOptions o ["level"] → IntOption o "level" 5 l →
      Asked L "gzip" o (.zlib l false)
  | bzip2 {L : Layout} {o : PyDict} {l : Int} : L ≠ .v3 → OnlyOptions o ["level"] → IntOption o "level" 5 l →
      Asked L "bzip2" o (.bzip2 l)
  | xz {o : PyDict} {l : Int} : OnlyOptions o ["level"] → IntOption o "level" 6 l → Asked .n5 "xz" o (.xz l)
  | lz4 {o : PyDict} {l : Int} : OnlyOptions o ["level"] → IntOption o "level" 6 l → Asked .n5 "lz4" o (.lz4 l)
  | zstd {L : Layout} {o : PyDict} {l : Int} : OnlyOptions o ["level"] → IntOption o "level" 3 l →
      Asked L "zstd" o (.zstd l)
  | blosc {L : Layout} {o : PyDict} {c : String} {l s b n : Int} :
      OnlyOptions o ["codec", if L = .v3 then "level" else "clevel", "shuffle", "blocksize", "nthreads"] →
      StrOption o "codec" "lz4" c → IntOption o (if L = .v3 then "level" else "clevel") 5 l →
      IntOption o "shuffle" 1 s → s ∈ [0, 1, 2] → IntOption o "blocksize" 0 b → IntOption o "nthreads" 1 n →
      (L ≠ .n5 → assocGet o "nthreads" = none) → Asked L "blosc" o (.blosc c l s b n)

/-- The compressor that is used if none is given -/
def Layout.defaultCompressor : Layout → String
  | .n5 => "gzip"
  | _ => "blosc"

/-- Where the settings asked for are not those used: gzip in zarr v2, and the level of blosc in zarr v2 and N5
    (`c60_gzip_counterexample`, `c60_clevel_counterexample`). -/
def Faithful (L : Layout) (compression : String) (o : PyDict) : Prop :=
  ¬ (L = .v2 ∧ compression = "gzip") ∧ (L ≠ .v3 → compression = "blosc" → IntOption o "clevel" 5 5)

/-- The separator of chunk keys: that of the group, in zarr v3 that of the encoding -/
def PyCreateArgs.askedSeparator (a : PyCreateArgs) : Layout → String
  | .v3 => if a.encoding = "v2" then "." else "/"
  | _ => a.separator

/-- The encoding of chunk keys: zarr v3 only -/
def PyCreateArgs.askedEncoding (a : PyCreateArgs) : Layout → String
  | .v3 => a.encoding
  | _ => "default"

/-- The arguments are values of the C++ types, and the keyword arguments have different names. -/
structure PyCreateArgs.Typed (a : PyCreateArgs) : Prop where
  shape : ∀ s, a.AsksShape s → ∀ n ∈ s, n < 2 ^ 64
  shards : ∀ s, a.shards = some s → ∀ n ∈ s, n < 2 ^ 64
  fill : a.fill.Representable
  options : (a.options.map Prod.fst).Nodup

/-- The document `j` says what is asked for. -/
def PyCreateArgs.Stored (a : PyCreateArgs) (L : Layout) (j : Json) : Prop :=
  ∃ dt s c, a.AsksShape s ∧ a.AsksType dt ∧ a.AsksChunks s c ∧
    ∀ S, Asked L (a.compression.getD L.defaultCompressor) a.options S →
      Faithful L (a.compression.getD L.defaultCompressor) a.options →
      ∃ d, L.Describes j ⟨dt, s, c, a.shards.getD [], S, some d, a.askedSeparator L, a.askedEncoding L⟩ ∧
        (L ≠ .n5 → dt.castFill d = dt.castFill a.fill)

/-- The fill value can be converted to the data type (fractions are cut off, numbers rounded to `float`). -/
def FillFits (dt : Datatype) (d : Dbl) : Prop :=
  let within (lo hi : Int) := ∃ i, d.trunc = some i ∧ lo ≤ i ∧ i < hi
  match dt with
  | .int8 => within (-2 ^ 7) (2 ^ 7)
  | .int16 => within (-2 ^ 15) (2 ^ 15)
  | .int32 => within (-2 ^ 31) (2 ^ 31)
  | .int64 => within (-2 ^ 63) (2 ^ 63)
  | .uint8 => within 0 (2 ^ 8)
  | .uint16 => within 0 (2 ^ 16)
  | .uint32 => within 0 (2 ^ 32)
  | .uint64 => within 0 (2 ^ 64)
  /- the largest `float` is (2^24 - 1) * 2^104 -/
  | .float32 | .complex64 => ∀ neg u, d = .fin neg u → u ≤ (2 ^ 24 - 1) * 2 ^ 1178
  | _ => True

/-- The shape of shards: of zarr v3, in each axis a multiple of the chunks -/
def ShardsFit (L : Layout) (shards : Option (List Nat)) (chunks : List Nat) : Prop :=
  ∀ s, shards = some s → L = .v3 ∧ s.length = chunks.length ∧ ∀ p ∈ List.zip s chunks, 0 < p.1 ∧ p.2 ∣ p.1

/-- The compressors for a format -/
def Layout.compressors : Layout → List String
  | .v2 => ["raw", "blosc", "zlib", "gzip", "bzip2", "zstd"]
  | .v3 => ["raw", "blosc", "gzip", "zstd"]
  | .n5 => ["raw", "blosc", "gzip", "bzip2", "xz", "lz4", "zstd"]

/-- The keyword arguments for a compressor; `id` and `useZlib` say how zlib and gzip are told apart. -/
def optionNames : Layout → String → List String
  | _, "raw" => []
  | .v2, "blosc" => ["codec", "clevel", "shuffle", "blocksize"]
  | .v3, "blosc" => ["codec", "level", "shuffle", "blocksize"]
  | .n5, "blosc" => ["codec", "clevel", "shuffle", "blocksize", "nthreads"]
  | .v2, "zlib" => ["level", "id"]
  | .v2, "gzip" => ["level", "id"]
  | .v3, "gzip" => ["level", "useZlib"]
  | _, _ => ["level"]

/-- A dataset is what `require_dataset` is asked for: shape, chunks and data type as far as they are given. -/
def PyCreateArgs.Matches (a : PyCreateArgs) (ds : DatasetObj) : Prop :=
  (∀ s, a.shape = some s → ds.info.shape = s) ∧ (∀ c, a.chunks = some c → ds.info.chunkShape = c) ∧
  (∀ t, a.dtype = some t → plainTypeName ds.info.dtype = some t)

end Z5
