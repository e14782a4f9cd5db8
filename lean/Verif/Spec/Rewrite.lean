import Verif.Spec.Factory

/-!
# Vocabulary for writing metadata again (C62)
-/

namespace Z5

/-- The file with the metadata of a group; in N5 only the root has metadata -/
def Layout.groupFile : Layout → String
  | .v2 => ".zgroup"
  | .v3 => "zarr.json"
  | .n5 => "attributes.json"

/-- What the metadata of a group (`isFile = false`) or of a root say in each format -/
def Layout.groupSays (isFile : Bool) : Layout → List (String × Json)
  | .v2 => [("zarr_format", .int 2)]
  | .v3 => [("zarr_format", .int 3), ("node_type", .str "group")]
  | .n5 => if isFile then [("n5", .str "2.0.0")] else []

/-- The version of zarr that belongs to a format (it does not matter for N5) -/
def Layout.version : Layout → Int
  | .v3 => 3
  | _ => 2

/-- From `σ` to `σ'` the metadata in the file `f` of the node at `p` were written; the user attributes other than `except` are
    kept, and no other file has changed. -/
structure Fs.KeepsAttributes (σ σ' : Fs) (p : Path) (L : Layout) (f : String) (except : List String) : Prop where
  node : σ'.Node p L
  files : ∀ q, q ≠ p ++ [f] → σ' q = σ q
  attributes : ∀ k, k ∉ except → σ'.attributes p L k = σ.attributes p L k

end Z5
