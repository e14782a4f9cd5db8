import Verif.Model.PyChunk
import Verif.Spec.Sharded

/-!
# What chunks hold, for users of `read_chunk` and `write_chunk` (C71)
-/

namespace Z5
open Spec Prog

variable {E : Elem}

/-- What a chunk holds: nothing, the elements of a chunk, or a list of elements of any length (`varlen`) -/
inductive ChunkContent (T : Type) where
  | missing
  | regular (data : List T)
  | varlen (data : List T)

/-- What `read_chunk` should return, if the shape of the chunk is `shape` -/
def ChunkContent.array {T : Type} (shape : List Nat) : ChunkContent T → Option (NpArray T)
  | missing => none
  | regular data => some ⟨shape, data⟩
  | varlen data => some ⟨[data.length], data⟩

/-- `f` with another content of chunk `c` -/
def setContent {T : Type} (f : List Nat → ChunkContent T) (c : List Nat) (x : ChunkContent T) : List Nat → ChunkContent T :=
  fun d => if d = c then x else f d

/-- The content of a chunk after it was written: nothing is stored if all elements are the fill value. -/
def ChunkContent.ofRegular (E : Elem) (fill : E.T) (data : List E.T) : ChunkContent E.T :=
  if data.all fun v => E.ceq v fill then .missing else .regular data

/-- ... with `varlen=True` -/
def ChunkContent.ofVarlen {T : Type} (data : List T) : ChunkContent T := if data.isEmpty then .missing else .varlen data

/-- The chunks hold `f` after calls of `write_chunk` and `remove_chunk`, starting from a dataset without any chunk.  Calls may
    fail.  With `varlen=True` there are less than 2^32 elements, and the compression works for their number. -/
inductive ChunkCalls (ds : Dataset E) : (List Nat → ChunkContent E.T) → Store → Prop
  | empty {σ} : (∀ c, InGrid ds.shape ds.chunkShape c → σ (ds.chunkKey c) = none) → ChunkCalls ds (fun _ => .missing) σ
  | write {f σ σ'} (c : List Nat) (a : NpArray E.T) : ChunkCalls ds f σ →
      run (ds.pyWriteChunk c (.array a) false) σ = (.ok (), σ') →
      ChunkCalls ds (setContent f c (.ofRegular E ds.fill a.data)) σ'
  | writeVarlen {f σ σ'} (c : List Nat) (a : NpArray E.T) : ChunkCalls ds f σ →
      a.data.length < 2 ^ 32 → a.data.length * E.size < 2 ^ 64 → ds.codec.LawfulFor (a.data.length * E.size) →
      run (ds.pyWriteChunk c (.array a) true) σ = (.ok (), σ') →
      ChunkCalls ds (setContent f c (.ofVarlen a.data)) σ'
  | remove {f σ σ'} (c : List Nat) : ChunkCalls ds f σ → InGrid ds.shape ds.chunkShape c →
      run (ds.removeChunk c) σ = (.ok (), σ') → ChunkCalls ds (setContent f c .missing) σ'
  | failed {f σ σ'} (c : List Nat) (a : ChunkArg E.T) (varlen : Bool) (e : Err) : ChunkCalls ds f σ →
      run (ds.pyWriteChunk c a varlen) σ = (.throw e, σ') → ChunkCalls ds f σ'

end Z5
