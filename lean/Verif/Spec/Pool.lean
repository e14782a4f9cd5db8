import Verif.Model.Pool

/-!
# Observing the thread pool
-/

namespace Z5.Pool
open Z5 Prog

variable {α : Type}

/-- the task that the event removes from the queue, if any: number and items -/
def takenBy (c : Config α) : Event → List (Nat × List Nat)
  | .worker w =>
    match c.workers[w]?, c.stop with
    | some .check, false => c.queue.take 1
    | _, _ => []
  | _ => []

/-- the tasks taken from the queue during a schedule, in the order in which they are taken -/
def takes (ts : List (Prog α)) : List Event → Config α → List (Nat × List Nat)
  | [], _ => []
  | ev :: es, c => takenBy c ev ++ takes ts es (step ts ev c)

/-- the batches that a list of commands enqueues -/
def enqueued : List Cmd → List (List Nat)
  | [] => []
  | .enqueue items :: l => items :: enqueued l
  | _ :: l => enqueued l

/-- `get` only asks for the future of a task that has been enqueued before; `m` have been already -/
def GetsOk : Nat → List Cmd → Prop
  | _, [] => True
  | m, .enqueue _ :: l => GetsOk (m + 1) l
  | m, .get id :: l => id < m ∧ GetsOk m l
  | m, .waitFinished :: l => GetsOk m l

/-- the batches have no item in common, and all items exist -/
structure Distinct (ts : List (Prog α)) (l : List Cmd) : Prop where
  nodup : (enqueued l).flatten.Nodup
  lt : ∀ i ∈ (enqueued l).flatten, i < ts.length

/-- a worker that is executing a task -/
def Worker.isExec : Worker α → Bool
  | .exec _ _ => true
  | _ => false

/-- a worker that is neither executing a task nor blocked: its next steps lead it to the queue -/
def Worker.isReady : Worker α → Bool
  | .check | .finish | .signal => true
  | _ => false

end Z5.Pool
