import Verif.Model.Pool

/-!
# What a parallel loop over a list of arguments does
-/

namespace Z5.Pool
open Z5

/-- The calls `ts` of a loop body are the calls `f a` for the arguments `a` in `args`, and in every execution of
    `parallel_foreach`, with every number of threads, that returns normally, the body is called exactly once for
    every argument (`log` lists the calls that were made). -/
def VisitsOnce {α β : Type} (ts : List (Prog α)) (f : β → Prog α) (args : List β) : Prop :=
  ts = args.map f ∧ ∀ (n : Nat) (σ σ' : Store) (log : List (Nat × Nat)), Foreach ts n σ (.ok ()) σ' log →
    (log.map fun call => args[call.2]?).Perm (args.map some) ∧ ∀ call ∈ log, call.1 < max 1 n

end Z5.Pool
