import Verif.Model.FileStore
import Verif.Model.S3Together

/-!
# Two groups of tasks at the same time

The tasks of a reading call have other outcomes than those of writing calls: here two lists of tasks work on one file system (one
bucket).  A schedule says which task of which list makes the next step.
-/

namespace Z5

variable {α β : Type}

/-- the task `i` of the first list, or of the second list, makes its next step (util/threadpool.hxx: tasks of different calls run in
    different pools, or processes; there is no order between their file operations) -/
def FsProg.stepBoth (i : Nat ⊕ Nat) (c : List (FsProg α) × List (FsProg β) × Fs) : List (FsProg α) × List (FsProg β) × Fs :=
  match i with
  | .inl i => let r := FsProg.step i (c.1, c.2.2); (r.1, c.2.1, r.2)
  | .inr i => let r := FsProg.step i (c.2.1, c.2.2); (c.1, r.1, r.2)

/-- both lists of tasks under a schedule (util/threadpool.hxx, as `FsProg.interleave`) -/
def FsProg.both : List (Nat ⊕ Nat) → List (FsProg α) × List (FsProg β) × Fs → List (FsProg α) × List (FsProg β) × Fs
  | [], c => c
  | i :: is, c => both is (stepBoth i c)

/-- as `FsProg.stepBoth`, with requests to the bucket (s3/handle.hxx:178-267) -/
def Prog.stepBoth (i : Nat ⊕ Nat) (c : List (Prog α) × List (Prog β) × Bucket) : List (Prog α) × List (Prog β) × Bucket :=
  match i with
  | .inl i => let r := Prog.stepObjects i (c.1, c.2.2); (r.1, c.2.1, r.2)
  | .inr i => let r := Prog.stepObjects i (c.2.1, c.2.2); (c.1, r.1, r.2)

/-- as `FsProg.both`, with requests to the bucket (s3/handle.hxx:178-267) -/
def Prog.both : List (Nat ⊕ Nat) → List (Prog α) × List (Prog β) × Bucket → List (Prog α) × List (Prog β) × Bucket
  | [], c => c
  | i :: is, c => both is (stepBoth i c)

end Z5
