import Verif.Model.Access
import Verif.Model.Factory
import Verif.Model.FileStore
import Verif.Model.Functions

/-!
# Dataset objects with elements

What `openDataset` and `createDataset` return is a `z5::Dataset` for some element type, plain or sharded
(`dataset.hxx`, `filesystem/factory.hxx`).  `DatasetObj` describes it; here it is used to read and write data.
-/

namespace Z5

variable {E : Elem}

/-- The compression libraries.  What they make of data depends on the settings of the dataset; how they decode depends on
    the compressor only: `decompress` in blosc_compressor.hxx:50, bzip2_compressor.hxx:67, lz4_compressor.hxx:48,
    xz_compressor.hxx:91, zstd_compressor.hxx:44 use no settings (blosc: only the number of threads), and
    zlib_compressor.hxx:92-123, 173-210 accepts zlib and gzip data whatever the settings.  `size` is the size of an element (`sizeof(T)`).  `Model/Compressors.lean` is an instance. -/
structure Libs where
  compress : (size : Nat) → Settings → Bytes → Res Bytes
  decompress : (size : Nat) → Compressor → Bytes → Nat → Res Bytes

/-- dataset.hxx:187-216: which compressor has these settings -/
def Settings.compressor : Settings → Compressor
  | .raw => .raw
  | .blosc .. => .blosc
  | .zlib .. => .zlib
  | .bzip2 .. => .bzip2
  | .lz4 .. => .lz4
  | .xz .. => .xz
  | .zstd .. => .zstd

/-- dataset.hxx:187-216 `init_compressor`: the codec with these settings -/
def Libs.codec (L : Libs) (size : Nat) (s : Settings) : Codec :=
  if s = .raw then .raw else .lib (L.compress size s) (L.decompress size s.compressor)

/-- `std::unique_ptr<z5::Dataset>`: `generic::Dataset` or `generic::ShardedDataset` -/
inductive AnyDataset (E : Elem) where
  | plain (ds : Dataset E)
  | sharded (sd : ShardedDataset E)

namespace AnyDataset

/-- what both have in common, dataset.hxx:31-38 -/
def base : AnyDataset E → Dataset E
  | plain ds => ds
  | sharded sd => sd.toDataset

/-- the part of the array that is in one file -/
def fileShape : AnyDataset E → List Nat
  | plain ds => ds.chunkShape
  | sharded sd => sd.shardShape

/-- array_access.hxx:497-521 `writeSubarray` -/
def writeSubarray (d : AnyDataset E) (inBuf : List E.T) (inView : View) (off : List Nat) (scratch : Nat → List E.T) :
    Res (List (Prog Unit)) :=
  match d with
  | plain ds => ds.writeSubarray inBuf inView off scratch
  | sharded sd => sd.writeRegion (copyRequest inBuf inView) off inView.shape scratch

/-- broadcast.hxx:19-50 `writeScalar` -/
def writeScalar (d : AnyDataset E) (off shape : List Nat) (v : E.T) (scratch : Nat → List E.T) :
    Res (List (Prog Unit)) :=
  match d with
  | plain ds => ds.writeScalar off shape v scratch
  | sharded sd => sd.writeRegion (scalarRequest v) off shape scratch

/-- array_access.hxx:407-493 `readSubarray` -/
def readSubarray (d : AnyDataset E) (out : View) (off : List Nat) (scratch : Nat → List E.T) :
    Res (List (Prog (List (Nat × E.T)))) :=
  match d with
  | plain ds => ds.readSubarray out off scratch
  | sharded sd => sd.readSubarray out off scratch

/-- dataset.hxx `writeChunk` -/
def writeChunk (d : AnyDataset E) (c : List Nat) (data : List E.T) : Prog Unit :=
  match d with
  | plain ds => ds.writeChunk c data
  | sharded sd => sd.writeChunk c data

/-- dataset.hxx `removeChunk` -/
def removeChunk (d : AnyDataset E) (c : List Nat) : Prog Unit :=
  match d with
  | plain ds => ds.removeChunk c
  | sharded sd => sd.removeChunk c

/-- util/functions.hxx:64-80 `removeDataset`: the calls of the loop -/
def removeDataset (d : AnyDataset E) : Res (List (Prog Unit)) :=
  match d with
  | plain ds => ds.removeDataset
  | sharded sd => sd.removeDataset

end AnyDataset

/-- generic/factory.hxx:16-32 `dispatchDtype` and filesystem/factory.hxx:25-38: the type of elements for each data type of
    the metadata, and its values for fill values.  Which types these are (`std::int8_t`, ...) does not matter. -/
structure ElemTypes where
  elem : Datatype → Elem
  cast : (t : Datatype) → FillVal → (elem t).T

/-- filesystem/factory.hxx:16-39 `makeDataset` for the element type `E`, whose fill value is `elem` of the value in the
    metadata (dataset.hxx:183 `static_cast<T>(metadata.fillValue)`); for S3: s3/factory.hxx:15-33 -/
def DatasetObj.typed (o : DatasetObj) (L : Libs) (elem : FillVal → E.T) (backend : Backend := .files) :
    Res (AnyDataset E) :=
  let key : KeyCfg := ⟨o.handle.cache.getD o.info.isZarr, o.handle.delimiter.toList, o.handle.zarrFormat.toNat,
    o.handle.encoding.toList⟩
  if o.sharded then do
    return .sharded (← ShardedDataset.make o.info.shape o.info.chunkShape o.info.shardShape key (L.codec E.size o.settings)
      (elem o.fill) o.handle.mode.canWrite backend)
  else do
    return .plain (← Dataset.make o.info.shape o.info.chunkShape key (L.codec E.size o.settings) (elem o.fill)
      o.handle.mode.canWrite backend)

end Z5
