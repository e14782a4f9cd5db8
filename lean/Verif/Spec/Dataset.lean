import Verif.Spec.Grid
import Verif.Model.Dataset
import Verif.Proofs.Keys

/-!
# Datasets that the theorems are about
-/

namespace Z5

variable {E : Elem}

/-- A dataset as the library constructs it, within the limits of the implementation:
    * `made`: the object comes out of the constructor;
    * `dims`: positive chunk extents, coordinates fit 64 bits;
    * `small`: the extents fit the `int` arithmetic of `getCoordinatesInRoi` (see C04);
    * `bytes`: a chunk has fewer than 2^64 bytes;
    * `codec`: the compressor is correct for chunks of this size (see C68);
    * `keyOk`: the zarr delimiter has a character that is not a digit (see C25);
    * `n5`: chunk extents and number of axes fit the N5 header (see C22). -/
structure Dataset.WF (ds : Dataset E) : Prop where
  made : Dataset.make ds.shape ds.chunkShape ds.key ds.codec ds.fill ds.canWrite ds.backend = .ok ds
  dims : Spec.ChunkDims ds.shape ds.chunkShape
  small : ∀ s ∈ ds.shape, s < 2 ^ 31
  bytes : prod ds.chunkShape * E.size < 2 ^ 64
  codec : ds.codec.LawfulFor (prod ds.chunkShape * E.size)
  keyOk : ds.key.isZarr = true → Separates ds.key.delimiter
  n5 : ds.key.isZarr = false → ds.shape.length < 2 ^ 16 ∧ ∀ b ∈ ds.chunkShape, b < 2 ^ 32

/-- The shape in which chunk `c` is stored: zarr stores full chunks (with padding outside the array),
    N5 clips chunks at the end of the array. -/
def Dataset.stored (ds : Dataset E) (c : List Nat) : List Nat :=
  if ds.isZarr then ds.chunkShape else extV ds.shape ds.chunkShape c

end Z5
