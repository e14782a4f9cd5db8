import Verif.Model.S3

/-!
# What happens to a bucket while others use it too
-/

namespace Z5.Spec

/-- The bucket is in order, and others keep it so. -/
def World.Ok (w : World) : Prop := w.bucket.WF ∧ ∀ e ∈ w.events, ∀ b : Bucket, b.WF → (e.change b).WF

/-- The object exists, and others do not delete it. -/
def Stays (k : Key) (w : World) : Prop :=
  k ∈ w.bucket.keys ∧ ∀ e ∈ w.events, ∀ b : Bucket, k ∈ b.keys → k ∈ (e.change b).keys

/-- There are no such objects, and others do not create any. -/
def Never (P : Key → Prop) (w : World) : Prop :=
  (∀ k ∈ w.bucket.keys, ¬ P k) ∧
  ∀ e ∈ w.events, ∀ b : Bucket, (∀ k ∈ b.keys, ¬ P k) → ∀ k ∈ (e.change b).keys, ¬ P k

/-- Others do not create the object (they may delete it). -/
def NotCreated (k : Key) (w : World) : Prop :=
  ∀ e ∈ w.events, ∀ b : Bucket, k ∉ b.keys → k ∉ (e.change b).keys

/-- Others leave the object alone. -/
def Untouched (k : Key) (w : World) : Prop :=
  ∀ e ∈ w.events, ∀ b : Bucket, (e.change b).get k = b.get k

/-- Others leave the bucket alone. -/
def World.Quiet (w : World) : Prop := ∀ e ∈ w.events, e.change = id

end Z5.Spec
