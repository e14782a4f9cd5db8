import Verif.Spec.Attributes
import Verif.Spec.Factory
import Verif.Model.S3Data

/-!
# Vocabulary for files, groups, datasets and attributes on S3 (C56, C57)
-/

namespace Z5

/-- Others leave the bucket alone, HEAD requests are answered, "not found" is not said of an object that exists, and
    listings return something.  Other errors may happen to any other request. -/
def Event.Reliable (e : Event) : Prop :=
  e.change = id ∧ e.error .head = none ∧ (∀ done, e.error .get ≠ some (.notFound, done)) ∧ 0 < e.size

/-- What a call does when it finds the bucket `b`, whatever reliable events happen: it sends at most `n` requests and
    * returns `r` (or throws it) and leaves the bucket `b'`, or
    * reports an error because a request has failed, and leaves the bucket as it was or `b'`, or
    * still waits, the bucket being as it was. -/
def S3M.Does {α : Type} (x : S3M α) (n : Nat) (b : Bucket) (r : Res α) (b' : Bucket) : Prop :=
  ∀ es : List Event, (∀ e ∈ es, e.Reliable) →
    (∃ es', es' <:+ es ∧ es.length ≤ n + es'.length ∧ x ⟨es, b⟩ = (some r, ⟨es', b'⟩)) ∨
    (∃ es' b'', es' <:+ es ∧ x ⟨es, b⟩ = (some (.throw .runtimeError), ⟨es', b''⟩) ∧ (b'' = b ∨ b'' = b') ∧
      ∃ e ∈ es, ∃ kind, e.error kind ≠ none) ∨
    (es.length < n ∧ x ⟨es, b⟩ = (none, ⟨[], b⟩))

namespace Bucket

/-- The JSON document in an object (an empty one counts as `{}`) -/
def docAt (b : Bucket) (k : Key) : Option Json :=
  match b.get k with
  | some (.doc j) => some j
  | some (.file []) => some (.obj [])
  | _ => none

/-- There is an object of this key, or one below it. -/
def HasNode (b : Bucket) (k : Key) : Prop := k ∈ b.keys ∨ ∃ k' ∈ b.keys, k ++ ['/'] <+: k'

/-- The attributes that the objects of the node `name` hold -/
def attributes (b : Bucket) (name : Key) (L : Layout) : AttrMap := fun k =>
  match L with
  | .v3 => ((b.docAt (docKey name "zarr.json")).bind (·.find "attributes")).bind (·.find k)
  | _ => (b.docAt (docKey name L.file)).bind (·.find k)

/-- A node that stores its attributes in layout `L`: the object for the attributes, if it exists, holds a JSON object;
    and `zarr.json` exists exactly for zarr v3 (for N5 it does not matter). -/
structure Node (b : Bucket) (name : Key) (L : Layout) : Prop where
  doc : b.get (docKey name L.file) = none ∨ ∃ j, b.docAt (docKey name L.file) = some j ∧ j.IsObject
  v3 : L = .v3 → ∃ j, b.docAt (docKey name "zarr.json") = some j ∧ j.IsObject ∧
    ∀ a, j.find "attributes" = some a → a.IsObject
  v2 : L = .v2 → b.get (docKey name "zarr.json") = none

/-- From `b` to `b'` the attributes of the node became `A`, and nothing else changed: no other object, and in
    `zarr.json` nothing but the attributes. -/
structure OnlyAttributes (b b' : Bucket) (name : Key) (L : Layout) (A : AttrMap) : Prop where
  node : b'.Node name L
  attributes : b'.attributes name L = A
  objects : ∀ k, k ≠ docKey name L.file → b'.get k = b.get k
  rest : L = .v3 → ∀ k, k ≠ "attributes" →
    (b'.docAt (docKey name "zarr.json")).bind (·.find k) = (b.docAt (docKey name "zarr.json")).bind (·.find k)
  kept : b.get (docKey name L.file) ≠ none → b'.get (docKey name L.file) ≠ none
  /-- no empty object is left behind -/
  written : b.get (docKey name L.file) ≠ some (.file []) → b'.get (docKey name L.file) ≠ some (.file [])
  wf : b.WF → b'.WF

/-- The node `name` exists: something is stored below it. -/
def Exists (b : Bucket) (name : Key) : Prop := ∃ k ∈ b.keys, dirPrefix name <+: k

/-- The file or group `name` is one of zarr. -/
def IsZarr (b : Bucket) (name : Key) : Prop := ∃ m ∈ [".zgroup", "zarr.json"], b.HasNode (docKey name m)

/-- The bucket with the document of a new group or file; a group of N5 has none. -/
def withGroup (b : Bucket) (name : Key) (L : Layout) (zarrFormat : Int) (isFile : Bool) : Bucket :=
  match L with
  | .v3 => b.put (docKey name "zarr.json") (.doc v3GroupDoc)
  | .v2 => b.put (docKey name ".zgroup") (.doc (.obj [("zarr_format", .int zarrFormat)]))
  | .n5 => if isFile then b.put (docKey name "attributes.json") (.doc (.obj [("n5", .str "2.0.0")])) else b

end Bucket

/-- Something on S3 that has attributes: the handle of a group, of a file (the root) or of a dataset -/
inductive S3Target where
  | group (h : S3Handle)
  | file (h : S3Handle)
  | dataset (d : S3DatasetHandle)

namespace S3Target

def name : S3Target → Key
  | group h | file h => h.name
  | dataset d => d.name

def mode : S3Target → FileMode
  | group h | file h => h.mode
  | dataset d => d.base.mode

/-- what is known of the format without asking -/
def cache : S3Target → Option Bool
  | group _ | file _ => none
  | dataset d => d.base.cache

/-- the documents that make a node a zarr node -/
def markers : S3Target → List String
  | group _ | file _ => [".zgroup", "zarr.json"]
  | dataset _ => [".zarray", "zarr.json"]

/-- `readAttributes(handle, j)` with an empty `j` -/
def read : S3Target → S3M Json
  | group h | file h => h.readAttributes .null
  | dataset d => d.readAttributes .null

/-- `writeAttributes(handle, j)`, `removeAttribute(handle, key)` -/
def change : S3Target → AttrOp → S3M Unit
  | group h, .write j => h.writeAttributes j
  | group h, .remove k => h.removeAttribute k
  | file h, .write j => h.writeFileAttributes j
  | file h, .remove k => h.removeFileAttribute k
  | dataset d, .write j => d.writeAttributes j
  | dataset d, .remove k => d.removeAttribute k

/-- Keys that cannot be changed -/
def locked : S3Target → Layout → List String
  | file _, .n5 => ["n5"]
  | dataset _, .n5 => ["dimensions", "blockSize", "dataType", "compressionType", "compression"]
  | _, _ => []

/-- Keys that are not shown -/
def hidden : S3Target → Layout → List String
  | dataset _, .n5 => ["dimensions", "blockSize", "dataType", "compressionType", "compression"]
  | _, _ => []

/-- What reading shows of the attributes -/
def shown (t : S3Target) (L : Layout) (A : AttrMap) : AttrMap := fun k =>
  if (t.hidden L).contains k then none else A k

/-- The handle `t` refers to a node in layout `L`. -/
structure Refers (t : S3Target) (b : Bucket) (L : Layout) : Prop where
  node : b.Node t.name L
  zarr : t.cache = none → (L.isZarr = true ↔ ∃ m ∈ t.markers, b.HasNode (docKey t.name m))
  cached : ∀ z, t.cache = some z → z = L.isZarr
  /-- The metadata of an N5 dataset are in the object for the attributes. -/
  dataset : ∀ d, t = dataset d → L = .n5 → b.get (docKey t.name "attributes.json") ≠ none

/-- The attributes after a history of changes, some of which took effect; those that name a locked key have none. -/
def replay (t : S3Target) (L : Layout) : List (AttrOp × Bool) → AttrMap → AttrMap
  | [], A => A
  | (op, effect) :: ops, A => t.replay L ops (if effect && !op.names (t.locked L) then op.apply A else A)

/-- A history of calls, each with its events: what the calls return (`none`: interrupted), and the bucket at the end -/
def history (t : S3Target) : List (AttrOp × List Event) → Bucket → List (Option (Res Unit)) × Bucket
  | [], b => ([], b)
  | (op, es) :: ops, b =>
    let (r, w) := t.change op ⟨es, b⟩
    let (rs, b') := t.history ops w.bucket
    (r :: rs, b')

end S3Target

end Z5
