import Verif.Spec.FileStore
import Verif.Spec.Persist
import Verif.Spec.S3Nodes

/-!
# Vocabulary for data on S3 that outlive the objects they were written with (C78)
-/

namespace Z5

open Spec

namespace AnyDataset

variable {E : Elem}

/-- All tasks have finished without exception under schedule `is`, and the bucket is now `b'`. -/
def CompletesS3 (name : Key) (ts : List (Prog Unit)) (is : List Nat) (b b' : Bucket) : Prop :=
  ∃ rs, Prog.Finished (Prog.interleaveS3 name is (ts, b)).1 rs ∧ (∀ r ∈ rs, r = .ok ()) ∧
    b' = (Prog.interleaveS3 name is (ts, b)).2

/-- One successful modifying call on the dataset `name`, taking the bucket from `b` to `b'`, and what it was asked to write. -/
inductive PerformsS3 (d : AnyDataset E) (name : Key) : Write E.T → Bucket → Bucket → Prop
  /-- `writeSubarray` of a (possibly strided) array view, or `writeScalar` -/
  | region {b b'} (call : RegionCall E) (val : List Nat → E.T) (scratch : Nat → List E.T)
      (ts : List (Prog Unit)) (is : List Nat) :
      call.Valid d.base → (∀ i, InBox i call.shape → call.value i = some (val i)) →
      d.start call scratch = .ok ts → CompletesS3 name ts is b b' →
      PerformsS3 d name ⟨call.off, call.shape, val⟩ b b'
  /-- `writeChunk` -/
  | chunk {b b'} (c : List Nat) (data : List E.T) (val : List Nat → E.T) (is : List Nat) :
      InGrid d.base.shape d.base.chunkShape c → data.length = prod (d.stored c) →
      (∀ i, InBox i (d.stored c) → data[ravel (d.stored c) i]? = some (val i)) →
      CompletesS3 name [d.writeChunk c data] is b b' →
      PerformsS3 d name ⟨mulV c d.base.chunkShape, d.stored c, val⟩ b b'
  /-- `removeChunk` -/
  | remove {b b'} (c : List Nat) (is : List Nat) : InGrid d.base.shape d.base.chunkShape c →
      CompletesS3 name [d.removeChunk c] is b b' →
      PerformsS3 d name ⟨mulV c d.base.chunkShape, d.stored c, fun _ => d.base.fill⟩ b b'

/-- "Reading the dataset `name` gives the array `A`": every valid region read, into every output view, with every content of
    the scratch buffers, under every schedule and every order of the memory writes, succeeds, sets exactly the elements of
    the output view to the elements of `A`, and changes nothing in the bucket. -/
def ReadsAsS3 (d : AnyDataset E) (name : Key) (b : Bucket) (A : List Nat → E.T) : Prop :=
  ∀ (off : List Nat) (out : View) (outBuf : List E.T) (scratch : Nat → List E.T),
    RegionOk d.base.shape off out.shape → Props.FitsIn out outBuf.length → Props.NoAlias out →
    ∃ ts, d.readSubarray out off scratch = .ok ts ∧
      ∀ is rs, Prog.Finished (Prog.interleaveS3 name is (ts, b)).1 rs →
        (Prog.interleaveS3 name is (ts, b)).2 = b ∧ (∃ out', Delivers outBuf rs out') ∧
        ∀ out', Delivers outBuf rs out' → out'.length = outBuf.length ∧
          (∀ i, InBox i out.shape → out'[out.base + dot i out.strides]? = some (A (addV off i))) ∧
          (∀ a, (∀ i, InBox i out.shape → out.base + dot i out.strides ≠ a) →
            out'[a]? = outBuf[a]?)

end AnyDataset

/-- The dataset `name` over any number of sessions.  `o₀` is the object that `createDataset` returned, `os` are the objects
    that are open now (in any number of processes), `ws` is what has been written, in this order, and `b` is the bucket
    now.  The events of a call are `Reliable`: requests may fail, but not so that the code cannot see it. -/
inductive S3Sessions {E : Elem} (L : Libs) (elem : FillVal → E.T) (name : Key) (o₀ : S3DatasetObj) :
    List S3DatasetObj → List (Write E.T) → Bucket → Prop
  /-- `createDataset` -/
  | created {root : S3Handle} {key : Key} {a : CreateArgs} {b : Bucket} {es : List Event} {w : World} :
      (∀ e ∈ es, e.Reliable) → joinKey root.name key = name →
      root.createDataset key a ⟨es, b⟩ = (some (.ok o₀), w) → S3Sessions L elem name o₀ [o₀] [] w.bucket
  /-- `openDataset`, from any group above, in any mode (a zarr dataset: from a zarr group) -/
  | opened {root : S3Handle} {key : Key} {os : List S3DatasetObj} {ws : List (Write E.T)} {b : Bucket} {es : List Event}
      {w : World} {o : S3DatasetObj} :
      S3Sessions L elem name o₀ os ws b → (∀ e ∈ es, e.Reliable) → joinKey root.name key = name →
      (o₀.obj.info.isZarr = true → b.IsZarr root.name) →
      root.openDataset key ⟨es, b⟩ = (some (.ok o), w) → S3Sessions L elem name o₀ (o :: os) ws w.bucket
  /-- objects are destroyed -/
  | closed {os os' : List S3DatasetObj} {ws : List (Write E.T)} {b : Bucket} : S3Sessions L elem name o₀ os ws b →
      (∀ o ∈ os', o ∈ os) → S3Sessions L elem name o₀ os' ws b
  /-- a successful modifying call on an open object that is not read-only -/
  | wrote {os : List S3DatasetObj} {ws : List (Write E.T)} {b b' : Bucket} {o : S3DatasetObj} {d : AnyDataset E}
      {w : Write E.T} :
      S3Sessions L elem name o₀ os ws b → o ∈ os → o.obj.handle.mode.canWrite = true → o.typed L elem = .ok d →
      d.PerformsS3 o.name w b b' → S3Sessions L elem name o₀ os (ws ++ [w]) b'
  /-- `writeAttributes` or `removeAttribute` on an open object; it may throw, or be interrupted -/
  | annotated {os : List S3DatasetObj} {ws : List (Write E.T)} {b : Bucket} {es : List Event} {o : S3DatasetObj}
      {op : AttrOp} : S3Sessions L elem name o₀ os ws b → (∀ e ∈ es, e.Reliable) → o ∈ os → op.Valid →
      S3Sessions L elem name o₀ os ws ((S3Target.dataset ⟨o.name, o.obj.handle⟩).change op ⟨es, b⟩).2.bucket
  /-- anything that leaves the objects of the dataset alone -/
  | elsewhere {os : List S3DatasetObj} {ws : List (Write E.T)} {b b' : Bucket} : S3Sessions L elem name o₀ os ws b →
      (∀ k, dirPrefix name <+: k → b'.get k = b.get k) → S3Sessions L elem name o₀ os ws b'

end Z5
