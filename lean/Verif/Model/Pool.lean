import Verif.Model.Prog

/-!
# The thread pool and `parallel_foreach`

A task of the pool is a batch: a list of item numbers.  The call of the loop body for item `i` is the program
`ts[i]` (what the body finds in the reused per-thread state is part of the program, see `Model/Access.lean`).

Every step below is atomic: it is one critical section of `queue_mutex`, one notification, one action of a
body on the store, or local to a thread.

Simplifications: thread creation does not fail; `enqueue` on a pool without workers
(util/threadpool.hxx:294-296) is left out because `parallel_foreach` does not enqueue in this case.
-/

namespace Z5.Pool
open Z5 Prog

variable {α : Type}

/-- util/threadpool.hxx:366-367: the loop `for(i < lc) f(id, iter[i])` of a batch.  `next l`: about to call
    the body for the items `l`; `run i p l`: `p` is left to do of the call for item `i`; `over r`: the loop
    has been left, normally or by an exception. -/
inductive Exec (α : Type) where
  | next (items : List Nat)
  | run (i : Nat) (p : Prog α) (rest : List Nat)
  | over (r : Res Unit)

/-- util/threadpool.hxx:220-250: where a worker is.  `check`: before taking the mutex and evaluating the
    predicate of `wait`; `sleep`: blocked in `wait`; `exec`: in `task(ti)`; `finish`: the task has returned,
    before `lock.lock()`; `signal`: before `finish_condition.notify_one()`; `exit`: the thread has ended. -/
inductive Worker (α : Type) where
  | check
  | sleep
  | exec (id : Nat) (e : Exec α)
  | finish
  | signal
  | exit

/-- what the owner of the pool asks for: `enqueue` a batch (futures are numbered in this order), `get` the
    future with this number (catching exceptions, 326-333), or `waitFinished` -/
inductive Cmd where
  | enqueue (items : List Nat)
  | get (id : Nat)
  | waitFinished
deriving DecidableEq

/-- where the owner of the pool is.  `notify`: the task is in the queue, before
    `worker_condition.notify_one()`; `waiting`: blocked in `waitFinished`; `stopping`, `joining`: in the
    destructor, before `notify_all` and before joining worker `k`. -/
inductive Client where
  | cmds (l : List Cmd)
  | notify (l : List Cmd)
  | waiting (l : List Cmd)
  | stopping
  | joining (k : Nat)
  | done
deriving DecidableEq

/-- `queue`: util/threadpool.hxx:202 `tasks` (number and items); `first`: 323 `firstException` (`ok`: none);
    `log`: the calls of the body so far (thread id and item), for the statements only; `results`: what the calls
    returned (thread id, item and value), in the order in which they returned.  (A value that a call leaves in
    data of its thread is modelled as a returned value.) -/
structure Config (α : Type) where
  client : Client
  first : Res Unit
  nTasks : Nat
  queue : List (Nat × List Nat)
  futures : Nat → Option (Res Unit)
  workers : List (Worker α)
  stop : Bool
  busy : Nat
  store : Store
  log : List (Nat × Nat)
  results : List (Nat × Nat × α)

/-- one step of the loop of a batch in thread `tid` -/
def Exec.step (ts : List (Prog α)) (tid : Nat) (c : Config α) : Exec α → Exec α × Config α
  | .next [] => (.over (.ok ()), c)
  | .next (i :: rest) =>
    match ts[i]? with
    | some p => (.run i p rest, { c with log := c.log ++ [(tid, i)] })
    | none => (.over .ub, c)
  | .run i (.act k f cont) rest =>
    (.run i (cont (c.store k)) rest, { c with store := c.store.upd k (f (c.store k)) })
  | .run i (.ret (.ok a)) rest => (.next rest, { c with results := c.results ++ [(tid, i, a)] })
  | .run _ (.ret (.throw e)) _ => (.over (.throw e), c)
  | .run _ (.ret .ub) _ => (.over .ub, c)
  | .over r => (.over r, c)

/-- `finish_condition.notify_one()` -/
def Client.wake : Client → Client
  | .waiting l => .cmds (.waitFinished :: l)
  | c => c

/-- util/threadpool.hxx:220-250: one step of worker `w`.  (`std::packaged_task` stores the exception of the
    batch in its future.) -/
def workerStep (ts : List (Prog α)) (w : Nat) (c : Config α) : Config α :=
  match c.workers[w]? with
  | some .check =>
    if c.stop then { c with workers := c.workers.set w .exit }
    else
      match c.queue with
      | [] => { c with workers := c.workers.set w .sleep }
      | (id, items) :: q =>
        { c with workers := c.workers.set w (.exec id (.next items)), queue := q, busy := c.busy + 1 }
  | some (.exec id (.over r)) =>
    { c with workers := c.workers.set w .finish,
             futures := fun j => if j = id then some r else c.futures j }
  | some (.exec id e) =>
    { (e.step ts w c).2 with workers := c.workers.set w (.exec id (e.step ts w c).1) }
  | some .finish => { c with workers := c.workers.set w .signal, busy := c.busy - 1 }
  | some .signal => { c with workers := c.workers.set w .check, client := c.client.wake }
  | _ => c

/-- util/threadpool.hxx: one step of the owner of the pool; `k`: the worker that `notify_one` wakes, if there
    is one to wake.  (267-299 `enqueueReturning`; 321-338 `getFutures`; 179-183 `waitFinished`; 256-265 the
    destructor, which comes after the last command.) -/
def clientStep (k : Nat) (c : Config α) : Config α :=
  match c.client with
  | .cmds [] => { c with stop := true, client := .stopping }
  | .cmds (.enqueue items :: l) =>
    { c with queue := c.queue ++ [(c.nTasks, items)], nTasks := c.nTasks + 1, client := .notify l }
  | .cmds (.get id :: l) =>
    match c.futures id with
    | none => c
    | some r => { c with first := if c.first = .ok () then r else c.first, client := .cmds l }
  | .cmds (.waitFinished :: l) =>
    if c.queue.isEmpty && c.busy == 0 then { c with client := .cmds l }
    else { c with client := .waiting l }
  | .notify l =>
    match c.workers[k]? with
    | some .sleep => { c with workers := c.workers.set k .check, client := .cmds l }
    | _ =>
      if c.workers.any (fun | .sleep => true | _ => false) then c else { c with client := .cmds l }
  | .waiting _ => c
  | .stopping =>
    { c with workers := c.workers.map (fun | .sleep => .check | w => w), client := .joining 0 }
  | .joining k =>
    match c.workers[k]? with
    | none => { c with client := .done }
    | some .exit => { c with client := .joining (k + 1) }
    | _ => c
  | .done => c

/-- who makes the next step: a worker, a worker that wakes up spuriously, or the owner -/
inductive Event where
  | worker (w : Nat)
  | spurious (w : Nat)
  | client (k : Nat)

def step (ts : List (Prog α)) : Event → Config α → Config α
  | .worker w, c => workerStep ts w c
  | .spurious w, c =>
    match c.workers[w]? with
    | some .sleep => { c with workers := c.workers.set w .check }
    | _ => c
  | .client k, c => clientStep k c

/-- a schedule -/
def steps (ts : List (Prog α)) : List Event → Config α → Config α
  | [], c => c
  | e :: es, c => steps ts es (step ts e c)

/-- util/threadpool.hxx:129-153, 212-254: a pool with `n` workers that have just been started -/
def start (n : Nat) (l : List Cmd) (σ : Store) : Config α :=
  { client := .cmds l, first := .ok (), nTasks := 0, queue := [], futures := fun _ => none,
    workers := List.replicate n .check, stop := false, busy := 0, store := σ, log := [], results := [] }

/-- util/threadpool.hxx:356-376 the loop of `parallel_foreach_impl`; `bs` is `chunkedWorkPerThread`, a
    number ≥ 1 computed in floating point (353-354, `Model/BatchSize`).  The first argument bounds the
    number of rounds. -/
def batchLoop (bs : Nat) : Nat → Nat → Nat → List (List Nat)
  | 0, _, _ => []
  | fuel + 1, iter, workload =>
    if workload = 0 then []
    else (List.range' iter (min workload bs)) ::
      batchLoop bs fuel (iter + min workload bs) (workload - min workload bs)

/-- the batches for `n` items -/
def batches (bs n : Nat) : List (List Nat) := batchLoop bs n 0 n

/-- util/threadpool.hxx:342-378 `parallel_foreach_impl` (random access iterators): the commands -/
def foreachCmds (bs n : Nat) : List Cmd :=
  (batches bs n).map .enqueue ++ (List.range (batches bs n).length).map .get

/-- util/threadpool.hxx:465-479 `parallel_foreach_single_thread`, also array_access.hxx:27-31, 54-58: the
    loop in the calling thread, with thread id 0.  An exception ends it.  The last components list the calls of
    the body and their results as `Config.log` and `Config.results` do. -/
def seqLoop (ts : List (Prog α)) : List Nat → Store → Res Unit × Store × List (Nat × Nat) × List (Nat × Nat × α)
  | [], σ => (.ok (), σ, [], [])
  | i :: is, σ =>
    match ts[i]? with
    | none => (.ub, σ, [], [])
    | some p =>
      match run p σ with
      | (.ok a, σ') =>
        ((seqLoop ts is σ').1, (seqLoop ts is σ').2.1, (0, i) :: (seqLoop ts is σ').2.2.1,
          (0, i, a) :: (seqLoop ts is σ').2.2.2)
      | (.throw e, σ') => (.throw e, σ', [(0, i)], [])
      | (.ub, σ') => (.ub, σ', [(0, i)], [])

/-- `parallel_foreach` over the items `0 … ts.length - 1` with `nThreads` threads (util/threadpool.hxx:584-601,
    616-640 and array_access.hxx:25-73): `r` is how it can end, `σ'` the store then, `log` the calls of the body
    (thread id and item), `res` what they returned (thread id, item and value), in the order in which they
    returned. -/
inductive ForeachRes (ts : List (Prog α)) (nThreads : Nat) (σ : Store) :
    Res Unit → Store → List (Nat × Nat) → List (Nat × Nat × α) → Prop
  | seq {r σ' log res} : nThreads ≤ 1 → seqLoop ts (List.range ts.length) σ = (r, σ', log, res) →
      ForeachRes ts nThreads σ r σ' log res
  | pool {bs es c} : 1 < nThreads → 1 ≤ bs →
      steps ts es (start nThreads (foreachCmds bs ts.length) σ) = c → c.client = .done →
      ForeachRes ts nThreads σ c.first c.store c.log c.results

/-- `parallel_foreach`, without the results of the calls -/
def Foreach (ts : List (Prog α)) (nThreads : Nat) (σ : Store) (r : Res Unit) (σ' : Store)
    (log : List (Nat × Nat)) : Prop := ∃ res, ForeachRes ts nThreads σ r σ' log res

end Z5.Pool
