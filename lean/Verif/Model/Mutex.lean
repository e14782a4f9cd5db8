import Verif.Model.Access

/-!
# Threads and the mutex of a sharded dataset
-/

namespace Z5
open Prog

/-- A thread that executes one call on a sharded dataset.  `waiting b`: about to enter the critical section
    with body `b` (generic/sharded_dataset.hxx:289 `std::lock_guard<std::mutex> lock(shardMutex_)`);
    `holding b`: in it, `b` is left to do; `free p`: `p` is left to do, not holding the mutex. -/
inductive Thread (α : Type) where
  | waiting (body : Prog α)
  | holding (body : Prog α)
  | free (p : Prog α)

namespace Thread
variable {α : Type}

/-- the threads, the owner of the mutex, and the store -/
structure Config (α : Type) where
  threads : List (Thread α)
  lock : Option Nat
  store : Store

/-- One step of thread `i`: acquire the mutex if it is free (otherwise the thread stays blocked), one action
    on a file, or release the mutex (destructor of the `lock_guard`, also when an exception leaves the
    scope). -/
def step (i : Nat) (c : Config α) : Config α :=
  match c.threads[i]? with
  | some (.waiting b) =>
    match c.lock with
    | none => { c with threads := c.threads.set i (.holding b), lock := some i }
    | some _ => c
  | some (.holding (.act k f cont)) =>
    { c with threads := c.threads.set i (.holding (cont (c.store k))),
             store := c.store.upd k (f (c.store k)) }
  | some (.holding (.ret r)) => { c with threads := c.threads.set i (.free (.ret r)), lock := none }
  | some (.free (.act k f cont)) =>
    { c with threads := c.threads.set i (.free (cont (c.store k))),
             store := c.store.upd k (f (c.store k)) }
  | _ => c

/-- the threads under a schedule -/
def interleave : List Nat → Config α → Config α
  | [], c => c
  | i :: is, c => interleave is (step i c)

/-- all threads are done, with these outcomes -/
def Finished (ts : List (Thread α)) (rs : List (Res α)) : Prop :=
  ts = rs.map fun r => .free (.ret r)

end Thread

variable {E : Elem}

/-- the calls that modify one inner chunk of a sharded dataset -/
inductive ChunkCall (E : Elem) where
  | write (c : List Nat) (data : List E.T)
  | remove (c : List Nat)

/-- the call without the mutex -/
def ChunkCall.prog (sd : ShardedDataset E) : ChunkCall E → Prog Unit
  | .write c data => sd.writeChunk c data
  | .remove c => sd.removeChunk c

/-- generic/sharded_dataset.hxx:56-64: what `writeChunk` does before `writeInnerBlob`. -/
def ShardedDataset.prepareChunk (sd : ShardedDataset E) (c : List Nat) (data : List E.T) :
    Res (Option Bytes) :=
  if !sd.canWrite then .throw .invalidArgument
  else do
    let _ ← sd.handle c
    sd.checkChunk c false
    sd.makeChunkBlob c data

/-- generic/sharded_dataset.hxx:53-66 `writeChunk`, 257-259 `removeChunk`, 286-298 `writeInnerBlob`: the
    chunk is compressed outside the critical section. -/
def ChunkCall.thread (sd : ShardedDataset E) : ChunkCall E → Thread Unit
  | .write c data =>
    match sd.prepareChunk c data with
    | .ok blob => .waiting (sd.writeInnerBlob c blob)
    | .throw e => .free (.ret (.throw e))
    | .ub => .free (.ret .ub)
  | .remove c => .waiting (sd.writeInnerBlob c none)

end Z5
