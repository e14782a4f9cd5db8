import Verif.Proofs.BatchSize
import Verif.Proofs.Foreach

/-!
# C37: the batches of a parallel loop
-/

namespace Z5.Props
open Z5 Pool

/-- **C37**, the computation of the batch size: with up to 2^32 items for each thread it is defined, whatever the rounding errors of
`float`, and the batches together have every item exactly once, in order. -/
theorem c37_batch_size {items nThreads : Nat} (hn : 0 < nThreads) (h : items ≤ 2 ^ 32 * nThreads) :
    ∃ bs, poolBatchSize items nThreads = .ok bs ∧ 1 ≤ bs ∧ (batches bs items).flatten = List.range items := by
  obtain ⟨bs, h1, h2⟩ := poolBatchSize_ok hn h
  exact ⟨bs, h1, h2, batches_flatten h2 items⟩

/-- 100 items and 4 threads: batches of 8 -/
example : poolBatchSize 100 4 = .ok 8 := by decide +kernel

/-- A number of items that is not a `float`: the share of a thread is 2^34 / 3, rounded three times -/
example : poolBatchSize (2 ^ 34 + 2 ^ 20) 3 = .ok 1908990848 := by decide +kernel

/-- **C37, negation**: for 2^35 items and two threads the conversion of the batch size to `int` is undefined behaviour. -/
theorem c37_batch_size_counterexample : poolBatchSize (2 ^ 35) 2 = .ub := by decide +kernel

end Z5.Props
