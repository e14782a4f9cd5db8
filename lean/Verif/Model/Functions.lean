import Verif.Model.ForEach

/-!
# Model of `util/functions.hxx`

The functions are templates over the element type `T`; `lt` is its C++ `<`, the order of `std::set<T>` and
`std::map<T, size_t>`.
-/

namespace Z5

/-! ### `std::set` and `std::map`

The containers are modelled by the sequence of their elements in order.  They require `<` to be a strict weak
order on the elements; for anything else (floating point data with a NaN) their behaviour is undefined. -/

/-- is `lt` a strict weak order on the elements of `l`? -/
def weakOrder {T : Type} (lt : T → T → Bool) (l : List T) : Bool :=
  l.all fun a => !lt a a && l.all fun b => l.all fun c =>
    (!(lt a b && lt b c) || lt a c) && (!(!lt a b && !lt b a && !lt b c && !lt c b) || (!lt a c && !lt c a))

/-- `std::set<T>::insert(x)`: an element equivalent to `x` is kept. -/
def setInsert {T : Type} (lt : T → T → Bool) (x : T) : List T → List T
  | [] => [x]
  | y :: s => if lt x y then x :: y :: s else if lt y x then y :: setInsert lt x s else y :: s

/-- `std::set<T>::insert(first, last)` and the constructor from a range -/
def setInsertAll {T : Type} (lt : T → T → Bool) (s l : List T) : Res (List T) :=
  if weakOrder lt (s ++ l) then .ok (l.foldl (fun s x => setInsert lt x s) s) else .ub

/-- util/functions.hxx:142-148 and 155-161: `find`, then `emplace(x, n)` or add `n` to the entry, for
    `std::map<T, std::size_t>`. -/
def mapAdd {T : Type} (lt : T → T → Bool) (x : T) (n : Nat) : List (T × Nat) → List (T × Nat)
  | [] => [(x, n)]
  | y :: m =>
    if lt x y.1 then (x, n) :: y :: m else if lt y.1 x then y :: mapAdd lt x n m else (y.1, wadd y.2 n) :: m

/-- the loops over `mapAdd` -/
def mapAddAll {T : Type} (lt : T → T → Bool) (m l : List (T × Nat)) : Res (List (T × Nat)) :=
  if weakOrder lt (m.map Prod.fst ++ l.map Prod.fst) then .ok (l.foldl (fun m x => mapAdd lt x.1 x.2 m) m)
  else .ub

/-! ### Per chunk -/

variable {E : Elem}

/-- util/functions.hxx:16-26 `prepareChunkReadBuffer` and what its callers do around it (46-51, 103-108,
    134-140): nothing if the chunk does not exist, else read the chunk into a fresh buffer; the result is the first
    `dataSize` elements of the buffer.  `exist`, `varlen` and `read` are `chunkExists`, `checkVarlenChunk` and
    `readChunk` of the dataset, `chunkSize` its `defaultChunkSize()`. -/
def storedElements (chunkSize : Nat) (isZarr : Bool) (exist : Prog Bool) (varlen : Prog (Bool × Nat))
    (read : List E.T → Prog (Bool × List E.T)) : Prog (Option (List E.T)) := do
  if !(← exist) then return none
  else
    let v ← varlen
    let dataSize := if !v.1 && isZarr then chunkSize else v.2
    let out ← read (resize E [] (max chunkSize dataSize))
    return some (out.2.take dataSize)

/-- util/functions.hxx:46-51 for a dataset without shards -/
def Dataset.storedElements (ds : Dataset E) (c : List Nat) : Prog (Option (List E.T)) :=
  Z5.storedElements ds.chunkSize ds.isZarr (ds.chunkExists c) (ds.checkVarlenChunk c) (ds.readChunk c)

/-- generic/sharded_dataset.hxx:129-133 `checkVarlenChunk` -/
def ShardedDataset.checkVarlenChunk (ds : ShardedDataset E) (c : List Nat) : Prog (Bool × Nat) := do
  let h ← .ret (ds.handle c)
  return (false, accumulateMul h.boundedShape)

/-- util/functions.hxx:46-51 for a sharded dataset -/
def ShardedDataset.storedElements (ds : ShardedDataset E) (c : List Nat) : Prog (Option (List E.T)) :=
  Z5.storedElements ds.chunkSize ds.isZarr (ds.chunkExists c) (ds.checkVarlenChunk c) (ds.readChunk c)

/-- util/functions.hxx:53-54: is a chunk with these elements to be removed?  `value` is `none` if
    `removeSpecificValue` is false. -/
def trivialElements (lt : E.T → E.T → Bool) (value : Option E.T) (data : List E.T) : Res Bool := do
  let uniques ← setInsertAll lt [] data
  match uniques with
  | [u] => return (match value with | none => true | some v => E.ceq u v)
  | _ => return false

/-- util/functions.hxx:42-59: the body of the loop of `removeTrivialChunks` -/
def trivialTask (lt : E.T → E.T → Bool) (value : Option E.T) (elements : Prog (Option (List E.T)))
    (remove : Prog Unit) : Prog Unit := do
  match ← elements with
  | none => return ()
  | some data =>
    if ← .ret (trivialElements lt value data) then remove else return ()

/-- util/functions.hxx:32-60 `removeTrivialChunks`: the calls of the loop -/
def Dataset.removeTrivialChunks (ds : Dataset E) (lt : E.T → E.T → Bool) (value : Option E.T) :
    Res (List (Prog Unit)) :=
  if !ds.canWrite then .throw .invalidArgument
  else .ok (ds.eachChunk fun c => trivialTask lt value (ds.storedElements c) (ds.removeChunk c))

/-- util/functions.hxx:32-60 `removeTrivialChunks` of a sharded dataset -/
def ShardedDataset.removeTrivialChunks (ds : ShardedDataset E) (lt : E.T → E.T → Bool) (value : Option E.T) :
    Res (List (Prog Unit)) :=
  if !ds.canWrite then .throw .invalidArgument
  else .ok (ds.eachChunk fun c => trivialTask lt value (ds.storedElements c) (ds.removeChunk c))

/-- util/functions.hxx:73-80: the body of the loop of `removeDataset` -/
def removeTask (exist : Prog Bool) (remove : Prog Unit) : Prog Unit := do
  if !(← exist) then return () else remove

/-- util/functions.hxx:64-80 `removeDataset`: the calls of the loop.  (83: the directory of the dataset is removed
    afterwards.) -/
def Dataset.removeDataset (ds : Dataset E) : Res (List (Prog Unit)) :=
  if !ds.canWrite then .throw .invalidArgument
  else .ok (ds.eachChunk fun c => removeTask (ds.chunkExists c) (ds.removeChunk c))

/-- util/functions.hxx:64-80 `removeDataset` of a sharded dataset -/
def ShardedDataset.removeDataset (ds : ShardedDataset E) : Res (List (Prog Unit)) :=
  if !ds.canWrite then .throw .invalidArgument
  else .ok (ds.eachChunk fun c => removeTask (ds.chunkExists c) (ds.removeChunk c))

/-! ### `unique` and `uniqueWithCounts` -/

/-- util/functions.hxx:98-111, 131-149: the calls of the loop.  Each call returns what it adds to the container of
    its thread. -/
def Dataset.uniqueCalls (ds : Dataset E) : List (Prog (Option (List E.T))) :=
  ds.eachChunk fun c => ds.storedElements c

def ShardedDataset.uniqueCalls (ds : ShardedDataset E) : List (Prog (Option (List E.T))) :=
  ds.eachChunk fun c => ds.storedElements c

/-- what the calls of thread `tid` have added, in their order -/
def addedBy {T : Type} (res : List (Nat × Nat × Option (List T))) (tid : Nat) : List (List T) :=
  (res.filter fun t => t.1 = tid).filterMap fun t => t.2.2

/-- util/functions.hxx:109, 141 `threadData[tid - 1]`: `threadData` has `nThreads - 1` entries (95, 128). -/
def threadsInRange {T : Type} (nThreads : Nat) (res : List (Nat × Nat × T)) : Bool :=
  res.all fun t => decide (t.1 = 0 ∨ t.1 - 1 < nThreads - 1)

/-- util/functions.hxx:89-118 `unique`, given the results `res` of the calls of the loop (`Pool.ForeachRes`).  The
    set of a thread is touched by this thread only, so the insertions are written here after the loop.
    `nThreads ≥ 1` is `getActualNumThreads()`. -/
def uniqueOf {T : Type} (lt : T → T → Bool) (nThreads : Nat) (uniques : List T)
    (res : List (Nat × Nat × Option (List T))) : Res (List T) :=
  if !threadsInRange nThreads res then .ub
  else do
    let u ← (addedBy res 0).foldlM (setInsertAll lt) uniques
    let threadData ← (List.range (nThreads - 1)).mapM fun t => (addedBy res (t + 1)).foldlM (setInsertAll lt) []
    threadData.foldlM (setInsertAll lt) u

/-- util/functions.hxx:123-165 `uniqueWithCounts`, likewise -/
def uniqueCountsOf {T : Type} (lt : T → T → Bool) (nThreads : Nat) (uniques : List (T × Nat))
    (res : List (Nat × Nat × Option (List T))) : Res (List (T × Nat)) :=
  if !threadsInRange nThreads res then .ub
  else do
    let add := fun m (l : List T) => mapAddAll lt m (l.map fun x => (x, 1))
    let u ← (addedBy res 0).foldlM add uniques
    let threadData ← (List.range (nThreads - 1)).mapM fun t => (addedBy res (t + 1)).foldlM add []
    threadData.foldlM (mapAddAll lt) u

end Z5
