import Verif.Spec.Calls

/-!
# Sharded datasets: what the theorems are about, and what successful calls are
-/

namespace Z5
open Spec Prog

variable {E : Elem}

/-- A sharded dataset as the library constructs it, within the limits of the implementation:
    * `made`: the object comes out of the constructor;
    * `base`: as for plain datasets (the inner chunks);
    * `shards`: the shard shape is a positive multiple of the chunk shape along every axis;
    * `slots`: a shard has fewer than 2^59 inner chunks. -/
structure ShardedDataset.WF (sd : ShardedDataset E) : Prop where
  made : ShardedDataset.make sd.shape sd.chunkShape sd.shardShape sd.key sd.codec sd.fill sd.canWrite sd.backend
    = .ok sd
  base : sd.toDataset.WF
  shards : All₂ (fun S b => 0 < b ∧ 0 < S ∧ S % b = 0) sd.shardShape sd.chunkShape
  slots : prod (List.zipWith (· / ·) sd.shardShape sd.chunkShape) < 2 ^ 59

/-- the tasks a region call creates on a sharded dataset -/
def RegionCall.startSharded (sd : ShardedDataset E) :
    RegionCall E → (Nat → List E.T) → Res (List (Prog Unit))
  | .copy inBuf inView off, scratch =>
    sd.writeRegion (copyRequest inBuf inView) off inView.shape scratch
  | .scalar off shape v, scratch => sd.writeRegion (scalarRequest v) off shape scratch

/-- no shard overlaps the regions of both calls -/
def RegionCall.DisjointShards (sd : ShardedDataset E) (a b : RegionCall E) : Prop :=
  ∀ s x y, InRegion x a.off a.shape → InRegion y b.off b.shape →
    InChunk sd.shape sd.shardShape s x → ¬ InChunk sd.shape sd.shardShape s y

/-- One successful modifying call on a sharded dataset, taking the store from `σ` to `σ'`, and what it
    was asked to write. -/
inductive ShardedPerforms (sd : ShardedDataset E) : Write E.T → Store → Store → Prop
  /-- `writeSubarray` of a (possibly strided) array view, or `writeScalar` -/
  | region {σ σ'} (call : RegionCall E) (val : List Nat → E.T) (scratch : Nat → List E.T)
      (ts : List (Prog Unit)) (is : List Nat) :
      call.Valid sd.toDataset → (∀ i, InBox i call.shape → call.value i = some (val i)) →
      call.startSharded sd scratch = .ok ts → Completes ts is σ σ' →
      ShardedPerforms sd ⟨call.off, call.shape, val⟩ σ σ'
  /-- `writeChunk` of an inner chunk -/
  | chunk {σ σ'} (c : List Nat) (data : List E.T) (val : List Nat → E.T) :
      data.length = prod sd.chunkShape →
      (∀ i, InBox i sd.chunkShape → data[ravel sd.chunkShape i]? = some (val i)) →
      run (sd.writeChunk c data) σ = (.ok (), σ') →
      ShardedPerforms sd ⟨mulV c sd.chunkShape, sd.chunkShape, val⟩ σ σ'
  /-- `removeChunk` of an inner chunk -/
  | remove {σ σ'} (c : List Nat) : InGrid sd.shape sd.chunkShape c →
      run (sd.removeChunk c) σ = (.ok (), σ') →
      ShardedPerforms sd ⟨mulV c sd.chunkShape, sd.chunkShape, fun _ => sd.fill⟩ σ σ'

/-- The store `σ` is the result of successful calls that wrote `ws`, starting from a dataset without
    any file. -/
inductive ShardedReaches (sd : ShardedDataset E) : List (Write E.T) → Store → Prop
  | empty {σ} : (∀ s, InGrid sd.shape sd.shardShape s → σ (getChunkKey sd.key s) = none) →
      ShardedReaches sd [] σ
  | step {ws w σ σ'} : ShardedReaches sd ws σ → ShardedPerforms sd w σ σ' →
      ShardedReaches sd (ws ++ [w]) σ'

/-- Successful calls that wrote `ws` took the store from `σ` to `σ'`. -/
inductive ShardedUpdates (sd : ShardedDataset E) : List (Write E.T) → Store → Store → Prop
  | nil {σ} : ShardedUpdates sd [] σ σ
  | step {ws w σ τ σ'} : ShardedUpdates sd ws σ τ → ShardedPerforms sd w τ σ' →
      ShardedUpdates sd (ws ++ [w]) σ σ'

/-- "Reading from the store `σ` gives the array `A`", as `ReadsAs`, for a sharded dataset. -/
def ShardedReadsAs (sd : ShardedDataset E) (σ : Store) (A : List Nat → E.T) : Prop :=
  ∀ (off : List Nat) (out : View) (outBuf : List E.T) (scratch : Nat → List E.T),
    RegionOk sd.shape off out.shape → Props.FitsIn out outBuf.length → Props.NoAlias out →
    ∃ ts, sd.readSubarray out off scratch = .ok ts ∧
      ∀ is rs, Finished (interleave is (ts, σ)).1 rs →
        (interleave is (ts, σ)).2 = σ ∧ (∃ out', Delivers outBuf rs out') ∧
        ∀ out', Delivers outBuf rs out' → out'.length = outBuf.length ∧
          (∀ i, InBox i out.shape → out'[out.base + dot i out.strides]? = some (A (addV off i))) ∧
          (∀ a, (∀ i, InBox i out.shape → out.base + dot i out.strides ≠ a) →
            out'[a]? = outBuf[a]?)

/-- "Reading from the store `σ` gives the array `A`, except in the shards `bad`", as `ReadsAsExcept`. -/
def ShardedReadsAsExcept (sd : ShardedDataset E) (σ : Store) (A : List Nat → E.T)
    (bad : List Nat → Prop) : Prop :=
  ∀ (off : List Nat) (out : View) (outBuf : List E.T) (scratch : Nat → List E.T),
    RegionOk sd.shape off out.shape → Props.FitsIn out outBuf.length → Props.NoAlias out →
    (∀ s x, bad s → InRegion x off out.shape → ¬ InChunk sd.shape sd.shardShape s x) →
    ∃ ts, sd.readSubarray out off scratch = .ok ts ∧
      ∀ is rs, Finished (interleave is (ts, σ)).1 rs →
        (interleave is (ts, σ)).2 = σ ∧ (∃ out', Delivers outBuf rs out') ∧
        ∀ out', Delivers outBuf rs out' → out'.length = outBuf.length ∧
          (∀ i, InBox i out.shape → out'[out.base + dot i out.strides]? = some (A (addV off i))) ∧
          (∀ a, (∀ i, InBox i out.shape → out.base + dot i out.strides ≠ a) →
            out'[a]? = outBuf[a]?)

end Z5
