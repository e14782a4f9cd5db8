import Verif.Spec.Rewrite
import Verif.Spec.S3Nodes

/-!
# Vocabulary for writing metadata again on S3 (C62)
-/

namespace Z5

/-- From `b` to `b'` the metadata in the object `f` of the node `name` were written; the user attributes other than `except` are
    kept, and no other object has changed. -/
structure Bucket.KeepsAttributes (b b' : Bucket) (name : Key) (L : Layout) (f : String) (except : List String) : Prop where
  node : b'.Node name L
  objects : ∀ k, k ≠ docKey name f → b'.get k = b.get k
  attributes : ∀ k, k ∉ except → b'.attributes name L k = b.attributes name L k

end Z5
