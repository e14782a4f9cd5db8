import Verif.Spec.PyDataset
import Verif.Model.PyProps
import Verif.Model.Opened
import Verif.Spec.Grid

/-!
# What the properties of a dataset have to say (C73)
-/

namespace Z5.Spec

/-- How a compressor is called in a format -/
def compressionName : Layout → Settings → String
  | _, .raw => "raw"
  | _, .blosc .. => "blosc"
  | .n5, .zlib .. => "gzip"
  | _, .zlib .. => "zlib"
  | .n5, .bzip2 _ => "bzip2"
  | _, .bzip2 _ => "bz2"
  | _, .lz4 _ => "lz4"
  | _, .xz _ => "xz"
  | _, .zstd _ => "zstd"

/-- The option `k` of the settings, as reported -/
def settingOf : Settings → String → Option Json
  | .blosc c l s b n, k =>
    if k = "codec" then some (.str c) else if k = "level" then some (.int l) else if k = "shuffle" then some (.int s)
    else if k = "blocksize" then some (.int b) else if k = "nthreads" then some (.int n) else none
  | .zlib l _, k | .bzip2 l, k | .lz4 l, k | .xz l, k | .zstd l, k => if k = "level" then some (.int l) else none
  | .raw, _ => none

/-- The properties of the object say what the description says. -/
structure Reports (ds : DatasetObj) (L : Layout) (d : ArrayDesc) : Prop where
  shape : ds.pyShape = d.shape
  ndim : d.shape.length < 2 ^ 32 → ds.pyNdim = d.shape.length
  size : prod d.shape < 2 ^ 64 → ds.pySize = prod d.shape
  len : ∀ n s, d.shape = n :: s → n < 2 ^ 63 → ds.pyLen = .ok n
  chunks : ds.pyChunks = d.chunks
  shards : ds.pyShards = if d.shards = [] then none else some d.shards
  dtype : ∀ t, plainTypeName d.dtype = some t → ds.pyDtype = .ok t
  isZarr : ds.pyIsZarr = L.isZarr
  /-- the chunks of an axis just cover it -/
  grid : ∃ g : List Nat, ds.pyChunksPerDimension = .ok g ∧ g.length = d.shape.length ∧
    (∀ i s c n : Nat, d.shape[i]? = some s → d.chunks[i]? = some c → g[i]? = some n → s ≤ n * c ∧ ∀ m, s ≤ m * c → n ≤ m) ∧
    (prod g < 2 ^ 64 → ds.pyNumberOfChunks = .ok (prod g))
  compression : ds.pyCompression = compressionName L d.compression
  options : d.compression ≠ .raw → ∃ o, ds.pyCompressionOpts = .ok o ∧ (o.map Prod.fst).Nodup ∧
    ∀ k, assocGet o k = settingOf d.compression k

/-- The document of a dataset of this format is at the path `p`, in a file system where nothing else claims to be it. -/
def Documented (σ : Fs) (p : Path) (L : Layout) (j : Json) : Prop :=
  σ.docAt (p ++ [L.datasetFile]) = some j ∧ (L ≠ .v3 → σ (p ++ ["zarr.json"]) = none) ∧
  (L = .n5 → σ (p ++ [".zarray"]) = none)

/-- The compressors whose name and options can be passed on to `create_dataset` -/
def CanBePassedOn : Layout → Settings → Prop
  | .v2, .zlib _ useZlib => useZlib = true
  | .v2, .zstd _ => True
  | .v3, .zstd _ => True
  | .n5, .zlib _ useZlib => useZlib = false
  | .n5, .bzip2 _ | .n5, .xz _ | .n5, .lz4 _ | .n5, .zstd _ => True
  | _, _ => False

/-- The compressors whose name and options `create_dataset` does not accept -/
def CannotBePassedOn : Layout → Settings → Prop
  | _, .blosc .. => True
  | .v2, .bzip2 _ | .v2, .lz4 _ => True
  | .v3, .zlib .. | .v3, .bzip2 _ | .v3, .lz4 _ => True
  | _, _ => False

end Z5.Spec
