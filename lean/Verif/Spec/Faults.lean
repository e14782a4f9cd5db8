import Verif.Model.Prog

/-!
# Failing requests

On S3 every action of a `Prog` is a request, and requests can fail.  What the code does then
(s3/handle.hxx:178-267):

* `getObject`, `putObject` and `deleteObject` throw a `runtime_error`; the service may or may not have carried the
  request out;
* `objectExists` returns `false`, as if there was no object.

Simplification: an error that looks like "no such object" (`isNotFound`, s3/handle.hxx:164-168) although there is one is
not considered.  `Props/Faults.lean` shows that the functions of `Model/S3.lean` have these behaviours and no others.
-/

namespace Z5.Prog

/-- what becomes of a request -/
inductive Fate where
  /-- it is carried out and answered -/
  | served
  /-- it is not carried out, and the call that has sent it throws -/
  | lost
  /-- it is carried out, but the call that has sent it throws -/
  | unanswered
  /-- it is a `HeadObject` request that fails -/
  | headFailed
  deriving DecidableEq

/-- the program when `fate n` becomes of its `n`-th request -/
def withFaults {α : Type} : (Nat → Fate) → Prog α → Prog α
  | _, .ret r => .ret r
  | fate, .act k f c =>
    match fate 0 with
    | .served => .act k f fun v => withFaults (fun n => fate (n + 1)) (c v)
    | .lost => .act k id fun _ => .ret (.throw .runtimeError)
    | .unanswered => .act k f fun _ => .ret (.throw .runtimeError)
    | .headFailed => .act k id fun _ => withFaults (fun n => fate (n + 1)) (c none)

/-- concurrent tasks when `fate j n` becomes of the `n`-th request of task `j` -/
def allWithFaults {α : Type} (fate : Nat → Nat → Fate) (ts : List (Prog α)) : List (Prog α) :=
  ts.mapIdx fun j p => withFaults (fate j) p

/-- The first request of the program changes nothing and asks only whether the object exists. -/
def StartsWithHead {α : Type} (p : Prog α) : Prop :=
  ∃ k c, p = .act k id c ∧ ∀ b b' : Bytes, c (some b) = c (some b')

end Z5.Prog
