import Verif.Spec.Attributes
import Verif.Spec.Metadata
import Verif.Model.Factory
import Verif.Model.Handle
import Verif.Model.Prog
import Verif.Model.FileStore

/-!
# Vocabulary for the theorems on files, groups and datasets (C31, C42, C45, C49)
-/

namespace Z5

/-- How a node is stored -/
def Layout.of (isZarr : Bool) (zarrFormat : Int) : Layout :=
  if isZarr then (if zarrFormat = 3 then .v3 else .v2) else .n5

/-- The file or object with the metadata of a dataset -/
def Layout.datasetFile : Layout → String
  | .v2 => ".zarray"
  | .v3 => "zarr.json"
  | .n5 => "attributes.json"

/-- From `σ` to `σ'` a node came into being at `p`: its directory with the given documents in it, the
    directories that lead to it, and nothing else. -/
structure Fs.NewNode (σ σ' : Fs) (p : Path) (docs : String → Option Json) : Prop where
  fresh : σ p = none
  dirs : ∀ q, q <+: p → σ' q = some .dir
  docs : ∀ n, σ' (p ++ [n]) = (docs n).map .doc
  below : ∀ q, 2 ≤ q.length → σ' (p ++ q) = none
  rest : ∀ q, ¬ q <+: p → ¬ p <+: q → σ' q = σ q

/-- The document of a new group of zarr v3 -/
def v3GroupDoc : Json := .obj [("zarr_format", .int 3), ("node_type", .str "group"), ("attributes", .obj [])]

/-- The documents of a new group or file -/
def groupDocs (L : Layout) (zarrFormat : Int) (isFile : Bool) : String → Option Json := fun n =>
  match L with
  | .v3 => if n = "zarr.json" then some v3GroupDoc else none
  | .v2 => if n = ".zgroup" then some (.obj [("zarr_format", .int zarrFormat)]) else none
  | .n5 => if isFile = true ∧ n = "attributes.json" then some (.obj [("n5", .str "2.0.0")]) else none

/-- The metadata document of a dataset -/
def Meta.fileName (m : Meta) : String :=
  if m.isZarr then (if m.zarrFormat = 3 then "zarr.json" else ".zarray") else "attributes.json"

/-- The configuration of chunk keys of a dataset -/
def DatasetObj.keyCfg (ds : DatasetObj) : KeyCfg :=
  ⟨ds.handle.cache.getD ds.info.isZarr, ds.handle.delimiter.toList, ds.handle.zarrFormat.toNat,
    ds.handle.encoding.toList⟩

/-- The chunks stored in the directory of a dataset -/
def Fs.chunks (σ : Fs) (p : Path) : Store := fun k =>
  match σ (p ++ keyNames k []) with
  | some (.file b) => some b
  | _ => none

/-- A dataset `ds'` that has the properties of `ds` as far as its format can keep them: the shapes, the
    data type, the compressor and the names of all chunks; in zarr the fill value, in N5 the fill value is
    zero; the compressor settings, except for what `c26`, `c27` and `c28` name. -/
structure DatasetObj.SameAs (ds ds' : DatasetObj) : Prop where
  path : ds'.handle.path = ds.handle.path
  mode : ds'.handle.mode = ds.handle.mode
  isZarr : ds'.info.isZarr = ds.info.isZarr
  dtype : ds'.info.dtype = ds.info.dtype
  shape : ds'.info.shape = ds.info.shape
  chunkShape : ds'.info.chunkShape = ds.info.chunkShape
  shardShape : ds'.info.shardShape = ds.info.shardShape
  sharded : ds'.sharded = ds.sharded
  keys : ∀ c, getChunkKey ds'.keyCfg c = getChunkKey ds.keyCfg c
  fill : ds.info.isZarr = true ∨ ds.info.fillValue = .zero → ds'.fill = ds.fill
  fillN5 : ds.info.isZarr = false → ds'.info.fillValue = .zero
  compressor : ds'.info.compressor = ds.info.compressor
  settingsV2 : Layout.of ds.info.isZarr ds.info.zarrFormat = .v2 →
    ds'.info.settings = ds.info.settings
  settingsV3 : Layout.of ds.info.isZarr ds.info.zarrFormat = .v3 →
    ∀ s, ds.info.settings = .ok s → ds'.info.settings = .ok s.asV3
  settingsN5 : ds.info.isZarr = false → ds.info.compressor ≠ .zlib → ds'.settings = ds.settings
  settingsN5zlib : ds.info.isZarr = false → ∀ l z, ds.settings = .zlib l z → ds'.settings = .zlib l false

end Z5
