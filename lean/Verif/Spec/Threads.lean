import Verif.Model.Mutex
import Verif.Spec.Sharded

/-!
# Sequential executions of chunk calls
-/

namespace Z5
open Spec Prog

/-- The calls `ps`, executed one after the other in the given order, take the store from `σ` to `σ'`, and
    call number `i` has outcome `rs[i]`. -/
inductive Sequential {α : Type} (ps : List (Prog α)) (rs : List (Res α)) : List Nat → Store → Store → Prop
  | nil {σ} : Sequential ps rs [] σ σ
  | cons {i p r is σ σ1 σ2} : ps[i]? = some p → run p σ = (r, σ1) → rs[i]? = some r →
      Sequential ps rs is σ1 σ2 → Sequential ps rs (i :: is) σ σ2

/-- the chunk a call is about -/
def ChunkCall.chunk {E : Elem} : ChunkCall E → List Nat
  | .write c _ => c
  | .remove c => c

/-- what a call makes of its chunk: element `i` of the chunk, counted in C order -/
def ChunkCall.value {E : Elem} (sd : ShardedDataset E) : ChunkCall E → List Nat → E.T
  | .write _ data, i => data.getD (ravel sd.chunkShape i) sd.fill
  | .remove _, _ => sd.fill

/-- the chunk is a chunk of the dataset and the data has the size of a chunk -/
def ChunkCall.Valid {E : Elem} (sd : ShardedDataset E) : ChunkCall E → Prop
  | .write c data => InGrid sd.shape sd.chunkShape c ∧ data.length = prod sd.chunkShape
  | .remove c => InGrid sd.shape sd.chunkShape c

/-- the write that a call amounts to -/
def ChunkCall.effect {E : Elem} (sd : ShardedDataset E) (c : ChunkCall E) : Write E.T :=
  ⟨mulV c.chunk sd.chunkShape, sd.chunkShape, c.value sd⟩

end Z5
