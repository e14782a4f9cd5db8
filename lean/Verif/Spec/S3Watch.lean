import Verif.Spec.S3Nodes

/-!
# Vocabulary for calls on S3 during which others change the bucket (C98)
-/

namespace Z5

/-- HEAD requests are answered, "not found" is not said of an object that exists, and listings return something.  Other errors may happen to
    any other request, and others may change the bucket between the requests. -/
def Event.Answers (e : Event) : Prop :=
  e.error .head = none ∧ (∀ done, e.error .get ≠ some (.notFound, done)) ∧ 0 < e.size

/-- The states of the bucket while a call that changes nothing sends its requests -/
def statesOf : List Event → Bucket → List Bucket
  | [], b => [b]
  | e :: es, b => b :: statesOf es (e.change b)

/-- The outcomes of a call that changes nothing, whatever happens (`es`) while the bucket is found in states with `S`: the call
    * returns or throws something with `Q`, or
    * reports an error because a request has failed, or
    * still waits. -/
def S3M.Looks {α : Type} (x : S3M α) (S : Bucket → Prop) (Q : Res α → Prop) : Prop :=
  ∀ (es : List Event) (b : Bucket), (∀ e ∈ es, e.Answers) → (∀ b' ∈ statesOf es b, S b') →
    (∃ r es' b', x ⟨es, b⟩ = (some r, ⟨es', b'⟩) ∧ es' <:+ es ∧ statesOf es' b' <:+ statesOf es b ∧
      (Q r ∨ (r = .throw .runtimeError ∧ ∃ e ∈ es, ∃ kind, e.error kind ≠ none))) ∨
    ∃ b', x ⟨es, b⟩ = (none, ⟨[], b'⟩) ∧ b' ∈ statesOf es b

/-- The outcomes of a call that makes one change, whatever happens (`es`) while others bring the bucket into states with `S`: the call
    * returns (`a`), and at one moment it has changed the bucket from what others had made of it (`b'`) as `P` says, or
    * reports an error because a request has failed, and has made this change or none, or
    * still waits, and has changed nothing. -/
def S3M.Edits {α : Type} (x : S3M α) (S : Bucket → Prop) (P : α → Bucket → Bucket → Prop) : Prop :=
  ∀ (es : List Event) (b : Bucket), (∀ e ∈ es, e.Answers) → (∀ b' ∈ statesOf es b, S b') →
    (∃ r es', ∃ b' ∈ statesOf es b, ∃ b'', x ⟨es, b⟩ = (some r, ⟨es', b''⟩) ∧
      ((∃ a, r = .ok a ∧ P a b' b'') ∨
        (r = .throw .runtimeError ∧ (b'' = b' ∨ ∃ a, P a b' b'') ∧ ∃ e ∈ es, ∃ kind, e.error kind ≠ none))) ∨
    ∃ b' ∈ statesOf es b, x ⟨es, b⟩ = (none, ⟨[], b'⟩)

/-- As `S3M.Edits`, or the call is refused with an error as `E` says, and has changed nothing. -/
def S3M.Tries {α : Type} (x : S3M α) (S : Bucket → Prop) (P : α → Bucket → Bucket → Prop) (E : Err → Prop) : Prop :=
  ∀ (es : List Event) (b : Bucket), (∀ e ∈ es, e.Answers) → (∀ b' ∈ statesOf es b, S b') →
    (∃ r es', ∃ b' ∈ statesOf es b, ∃ b'', x ⟨es, b⟩ = (some r, ⟨es', b''⟩) ∧
      ((∃ a, r = .ok a ∧ P a b' b'') ∨ (∃ e, r = .throw e ∧ b'' = b' ∧ E e) ∨
        (r = .throw .runtimeError ∧ (b'' = b' ∨ ∃ a, P a b' b'') ∧ ∃ e ∈ es, ∃ kind, e.error kind ≠ none))) ∨
    ∃ b' ∈ statesOf es b, x ⟨es, b⟩ = (none, ⟨[], b'⟩)

/-- The dataset `name` of zarr may be there: its document is missing, or is `j` but for the attributes; there are no documents of other
    formats. -/
structure Bucket.MayHold (b : Bucket) (name : Key) (La : Layout) (j : Json) : Prop where
  doc : b.get (docKey name La.datasetFile) = none ∨
    ∃ j', b.get (docKey name La.datasetFile) = some (.doc j') ∧ j'.IsObject ∧ ∀ k, k ≠ "attributes" → j'.find k = j.find k
  rest : ∀ n ∈ [".zarray", "zarr.json", "attributes.json"], n ≠ La.datasetFile → b.get (docKey name n) = none

/-- The object, with chunk keys of zarr of version 2 with dots -/
def S3DatasetObj.withDots (o : S3DatasetObj) : S3DatasetObj :=
  { o with obj := { o.obj with handle := { o.obj.handle with delimiter := ".", zarrFormat := 2, encoding := "default" } } }

/-- From `b` to `b'`, the attributes of the node were replaced by those of a state (`b₁`) with the change, and nothing else; or nothing was changed,
because there was nothing to change in the state `b₁`. -/
def ChangesFrom (S : Bucket → Prop) (name : Key) (La : Layout) (op : AttrOp) (b b' : Bucket) : Prop :=
  ∃ b₁, S b₁ ∧ (b.OnlyAttributes b' name La (op.apply (b₁.attributes name La)) ∨
    (b' = b ∧ op.apply (b₁.attributes name La) = b₁.attributes name La))

end Z5
