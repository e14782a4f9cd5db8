import Verif.Model.Attributes

/-!
# Vocabulary for the attribute theorems (C29, C30, C49)
-/

namespace Z5

/-- A JSON object (its keys are different). -/
def Json.IsObject (j : Json) : Prop := ∃ l, j = .obj l ∧ (l.map Prod.fst).Nodup

/-- Attributes as a map -/
abbrev AttrMap := String → Option Json

/-- A change of the attributes of a node -/
inductive AttrOp where
  | write (j : Json)
  | remove (key : String)

/-- What is written is a JSON object. -/
def AttrOp.Valid : AttrOp → Prop
  | .write j => j.IsObject
  | .remove _ => True

/-- Does the change name one of the keys? -/
def AttrOp.names : AttrOp → List String → Bool
  | .write j, ks => ks.any fun k => (j.find k).isSome
  | .remove k, ks => ks.contains k

/-- The keys of the written object are replaced or added; the removed key is gone. -/
def AttrOp.apply : AttrOp → AttrMap → AttrMap
  | .write j, A => fun k => match j.find k with
    | some v => some v
    | none => A k
  | .remove k', A => fun k => if k = k' then none else A k

/-- How a node stores its attributes. -/
inductive Layout where
  /-- zarr v2: the file `.zattrs` -/
  | v2
  /-- zarr v3: in `zarr.json` under `"attributes"` -/
  | v3
  /-- N5: the file `attributes.json` -/
  | n5
  deriving DecidableEq, Repr

/-- The file with the attributes -/
def Layout.file : Layout → String
  | .v2 => ".zattrs"
  | .v3 => "zarr.json"
  | .n5 => "attributes.json"

def Layout.isZarr : Layout → Bool
  | .n5 => false
  | _ => true

/-- The JSON document in a file of a node -/
def Fs.docAt (σ : Fs) (p : Path) : Option Json :=
  match σ p with
  | some (.doc j) => some j
  | _ => none

/-- The attributes that the files of a node at path `p` hold -/
def Fs.attributes (σ : Fs) (p : Path) (L : Layout) : AttrMap := fun k =>
  match L with
  | .v3 => ((σ.docAt (p ++ ["zarr.json"])).bind (·.find "attributes")).bind (·.find k)
  | _ => (σ.docAt (p ++ [L.file])).bind (·.find k)

/-- A node at path `p` that stores its attributes in layout `L`: a directory; the file for the
    attributes, if it exists, holds a JSON object; and `zarr.json` exists exactly for zarr v3 (for N5 it
    does not matter). -/
structure Fs.Node (σ : Fs) (p : Path) (L : Layout) : Prop where
  dir : σ p = some .dir
  doc : σ (p ++ [L.file]) = none ∨ ∃ j, σ (p ++ [L.file]) = some (.doc j) ∧ j.IsObject
  v3 : L = .v3 → ∃ j, σ (p ++ ["zarr.json"]) = some (.doc j) ∧ j.IsObject ∧
    ∀ a, j.find "attributes" = some a → a.IsObject
  v2 : L = .v2 → σ (p ++ ["zarr.json"]) = none

/-- From `σ` to `σ'` the attributes of the node became `A`, and nothing else changed: no other file, and in
    `zarr.json` nothing but the attributes. -/
structure Fs.OnlyAttributes (σ σ' : Fs) (p : Path) (L : Layout) (A : AttrMap) : Prop where
  node : σ'.Node p L
  attributes : σ'.attributes p L = A
  files : ∀ q, q ≠ p ++ [L.file] → σ' q = σ q
  rest : L = .v3 → ∀ k, k ≠ "attributes" →
    (σ'.docAt (p ++ ["zarr.json"])).bind (·.find k) = (σ.docAt (p ++ ["zarr.json"])).bind (·.find k)
  kept : σ (p ++ [L.file]) ≠ none → σ' (p ++ [L.file]) ≠ none

/-- Something that has attributes: the handle of a group, of a file (the root) or of a dataset -/
inductive Target where
  | group (g : GroupHandle)
  | file (g : GroupHandle)
  | dataset (d : DatasetHandle)

namespace Target

def path : Target → Path
  | group g | file g => g.path
  | dataset d => d.path

def mode : Target → FileMode
  | group g | file g => g.mode
  | dataset d => d.mode

def isZarr : Target → FsM Bool
  | group g | file g => g.isZarr
  | dataset d => d.isZarr

/-- `readAttributes(handle, j)` with an empty `j` -/
def read : Target → FsM Json
  | group g | file g => g.readAttributes .null
  | dataset d => d.readAttributes .null

/-- `writeAttributes(handle, j)`, `removeAttribute(handle, key)` -/
def change : Target → AttrOp → FsM Unit
  | group g, .write j => g.writeAttributes j
  | group g, .remove k => g.removeAttribute k
  | file g, .write j => g.writeFileAttributes j
  | file g, .remove k => g.removeFileAttribute k
  | dataset d, .write j => d.writeAttributes j
  | dataset d, .remove k => d.removeAttribute k

/-- Keys that cannot be changed -/
def locked : Target → Layout → List String
  | file _, .n5 => ["n5"]
  | dataset _, .n5 => ["dimensions", "blockSize", "dataType", "compressionType", "compression"]
  | _, _ => []

/-- Keys that are not shown -/
def hidden : Target → Layout → List String
  | dataset _, .n5 => ["dimensions", "blockSize", "dataType", "compressionType", "compression"]
  | _, _ => []

/-- The handle `t` refers to a node in layout `L`. -/
structure Refers (t : Target) (σ : Fs) (L : Layout) : Prop where
  node : σ.Node t.path L
  zarr : t.isZarr σ = (.ok L.isZarr, σ)
  /-- The metadata of an N5 dataset are in the file for the attributes. -/
  dataset : ∀ d, t = dataset d → L = .n5 → σ (t.path ++ ["attributes.json"]) ≠ none

/-- A history of changes, each of which may throw -/
def changes (t : Target) : List AttrOp → Fs → Fs
  | [], σ => σ
  | op :: ops, σ => t.changes ops (t.change op σ).2

/-- The attributes after a history: changes that name a locked key do nothing. -/
def replay (t : Target) (L : Layout) : List AttrOp → AttrMap → AttrMap
  | [], A => A
  | op :: ops, A => t.replay L ops (if op.names (t.locked L) then A else op.apply A)

/-- What reading shows of the attributes -/
def shown (t : Target) (L : Layout) (A : AttrMap) : AttrMap := fun k =>
  if (t.hidden L).contains k then none else A k

end Target

end Z5
