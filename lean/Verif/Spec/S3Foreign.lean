import Verif.Spec.Foreign
import Verif.Spec.S3Persist

/-!
# Buckets of other programs (C84)

A bucket, as bytes in objects, that holds an array of zarr v2, zarr v3 or N5 (as `Spec/Foreign` has it for directories).
-/

namespace Z5
open Spec

/-- Objects: their keys and their bytes -/
abbrev RawBucket := List (Key × Bytes)

namespace RawBucket

/-- the bytes of an object -/
def content (R : RawBucket) (k : Key) : Option Bytes := (R.find? fun p => p.1 == k).map (·.2)

/-- The last part of the key is the name of a document. -/
def IsDocument (k : Key) : Prop := ∃ n ∈ documentFiles, k = n.toList ∨ '/' :: n.toList <:+ k

instance (k : Key) : Decidable (IsDocument k) := inferInstanceAs (Decidable (∃ n ∈ documentFiles, k = n.toList ∨ '/' :: n.toList <:+ k))

/-- What the library makes of an object (s3/attributes.hxx:22, s3/factory.hxx:46, 64 `nlohmann::json::parse`, `JsonText.cppParse`): the
    model has the values of JSON documents in place of their texts (`Model/S3`). -/
def object (k : Key) (b : Bytes) : S3Obj :=
  if IsDocument k then
    match JsonText.cppParse b with
    | some j => .doc j
    | none => .file b
  else .file b

/-- what the library makes of the bucket -/
def view (R : RawBucket) : Bucket := R.map fun p => (p.1, object p.1 p.2)

/-- The object has a JSON text of the value `j`, possibly behind a byte order mark. -/
def HasText (R : RawBucket) (k : Key) (j : Json) : Prop :=
  ∃ bom t, JsonText.Bom bom ∧ JsonText.IsText .cpp t j ∧ R.content k = some (Utf8.encode (bom ++ t))

/-- The objects below `name` hold an array of the format `La` that is described by `a` and has the elements `A`.  (`name` is not empty: the
    library does not read an array that is the bucket itself, `c84_root_counterexample`.) -/
structure HoldsArray (R : RawBucket) (name : Key) (La : Layout) (a : ArrayDesc) (E : Elem) (C : Codec) (fill : E.T)
    (A : List Nat → E.T) : Prop where
  named : name ≠ []
  document : ∃ j, R.HasText (name ++ '/' :: La.datasetFile.toList) j ∧ La.Says j a
  /-- and there are no documents of another format -/
  others : ∀ n ∈ [".zarray", "zarr.json", "attributes.json"], n ≠ La.datasetFile → R.content (name ++ '/' :: n.toList) = none
  elements : a.IsStored La E C fill (fun k => R.content (name ++ '/' :: k)) A

/-- Nothing says that the array is a group (as `RawFs.NoGroup`). -/
def NoGroup (R : RawBucket) (name : Key) : Layout → Prop
  | .v2 => R.content (name ++ '/' :: ".zgroup".toList) = none
  | .v3 => True
  | .n5 => ∀ j, R.HasText (name ++ '/' :: "attributes.json".toList) j → j.find "compression" = none ∨ j.find "compressionType" = none

end RawBucket

/-- The same after the documents have been read -/
structure Bucket.HoldsArray (b : Bucket) (name : Key) (La : Layout) (a : ArrayDesc) (E : Elem) (C : Codec) (fill : E.T)
    (A : List Nat → E.T) : Prop where
  named : name ≠ []
  document : ∃ j, b.get (name ++ '/' :: La.datasetFile.toList) = some (.doc j) ∧ La.Says j a
  others : ∀ n ∈ [".zarray", "zarr.json", "attributes.json"], n ≠ La.datasetFile → b.get (name ++ '/' :: n.toList) = none
  elements : a.IsStored La E C fill (b.chunks name) A

/-- The bytes in `R` are those for the state `b`: the documents, which have the names of documents, are JSON texts. -/
def RawBucket.Stores (R : RawBucket) (b : Bucket) : Prop := ∀ k,
  match b.get k with
  | none => R.content k = none
  | some (.file bytes) => R.content k = some bytes
  | some (.doc j) => RawBucket.IsDocument k ∧ R.HasText k j

/-- A sequence of successful modifying calls on the dataset `name` (C78), what they were asked to write, and the bucket before and after
    them. -/
inductive AnyDataset.DoesS3 {E : Elem} (d : AnyDataset E) (name : Key) : List (Write E.T) → Bucket → Bucket → Prop
  | nil {b} : DoesS3 d name [] b b
  | step {ws w b b' b''} : DoesS3 d name ws b b' → d.PerformsS3 name w b' b'' → DoesS3 d name (ws ++ [w]) b b''

/-- The object `o`, and the typed dataset `d` made of it, are for the array `a` at `name`. -/
structure S3DatasetObj.StandsFor {E : Elem} (o : S3DatasetObj) (d : AnyDataset E) (L : Libs) (elem : FillVal → E.T) (a : ArrayDesc)
    (name : Key) (fm : FileMode) : Prop where
  typed : o.typed L elem = .ok d
  name : o.name = name
  mode : o.obj.handle.mode = fm
  dtype : o.obj.info.dtype = a.dtype
  shape : o.obj.info.shape = a.shape
  chunks : o.obj.info.chunkShape = a.chunks
  shards : o.obj.info.shardShape = a.shards
  wf : d.WF
  base : d.base.shape = a.shape ∧ d.base.chunkShape = a.chunks ∧ d.base.canWrite = fm.canWrite

/-- What may happen to an array after the bucket was `b₀` (C78 has the same for an array that was created by the library): objects are
    opened and destroyed, write to the array and change its attributes, and other things happen elsewhere. -/
inductive S3Uses {E : Elem} (L : Libs) (elem : FillVal → E.T) (name : Key) (La : Layout) (b₀ : Bucket) :
    List S3DatasetObj → List (Write E.T) → Bucket → Prop
  | start : S3Uses L elem name La b₀ [] [] b₀
  /-- `openDataset`, from any group above, in any mode (a zarr dataset: from a zarr group) -/
  | opened {root : S3Handle} {key : Key} {os : List S3DatasetObj} {ws : List (Write E.T)} {b : Bucket} {es : List Event} {w : World}
      {o : S3DatasetObj} :
      S3Uses L elem name La b₀ os ws b → (∀ e ∈ es, e.Reliable) → joinKey root.name key = name →
      (La.isZarr = true → b.IsZarr root.name) →
      root.openDataset key ⟨es, b⟩ = (some (.ok o), w) → S3Uses L elem name La b₀ (o :: os) ws w.bucket
  /-- objects are destroyed -/
  | closed {os os' : List S3DatasetObj} {ws : List (Write E.T)} {b : Bucket} : S3Uses L elem name La b₀ os ws b →
      (∀ o ∈ os', o ∈ os) → S3Uses L elem name La b₀ os' ws b
  /-- a successful modifying call on an open object that is not read-only -/
  | wrote {os : List S3DatasetObj} {ws : List (Write E.T)} {b b' : Bucket} {o : S3DatasetObj} {d : AnyDataset E} {w : Write E.T} :
      S3Uses L elem name La b₀ os ws b → o ∈ os → o.obj.handle.mode.canWrite = true → o.typed L elem = .ok d →
      d.PerformsS3 o.name w b b' → S3Uses L elem name La b₀ os (ws ++ [w]) b'
  /-- `writeAttributes` or `removeAttribute` on an open object; it may throw, or be interrupted -/
  | annotated {os : List S3DatasetObj} {ws : List (Write E.T)} {b : Bucket} {es : List Event} {o : S3DatasetObj} {op : AttrOp} :
      S3Uses L elem name La b₀ os ws b → (∀ e ∈ es, e.Reliable) → o ∈ os → op.Valid →
      S3Uses L elem name La b₀ os ws ((S3Target.dataset ⟨o.name, o.obj.handle⟩).change op ⟨es, b⟩).2.bucket
  /-- anything that leaves the objects of the array alone -/
  | elsewhere {os : List S3DatasetObj} {ws : List (Write E.T)} {b b' : Bucket} : S3Uses L elem name La b₀ os ws b →
      (∀ k, dirPrefix name <+: k → b'.get k = b.get k) → S3Uses L elem name La b₀ os ws b'

end Z5
