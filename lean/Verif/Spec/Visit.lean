import Verif.Model.Visit
import Verif.Spec.S3Nodes

/-!
# Vocabulary for `visititems` (C58)
-/

namespace Z5

/-- Call `func` on one thing after the other until it returns something: what it returned, and its state. -/
def callUntil {A s v : Type} (func : A → s → Option v × s) : List A → s → Option v × s
  | [], st => (none, st)
  | a :: as, st =>
    match func a st with
    | (some r, st) => (some r, st)
    | (none, st) => callUntil func as st

/-- The members of a group and of every group below it: the names that lead to it, and the object. -/
inductive Fs.Member (σ : Fs) : PyGroup → Path → PyGroup ⊕ DatasetObj → Prop where
  | group {g : PyGroup} {n : String} : σ (g.handle.path ++ [n]) = some .dir →
      (g.handle.isSubGroup [n] σ).1 = .ok true → σ.Member g [n] (.inl ⟨g.handle.group [n], g.zarrFormat⟩)
  | dataset {g : PyGroup} {n : String} {d : DatasetObj} : σ (g.handle.path ++ [n]) = some .dir →
      (g.handle.isSubGroup [n] σ).1 = .ok false → (g.handle.openDataset [n] σ).1 = .ok d → σ.Member g [n] (.inr d)
  | deeper {g : PyGroup} {n : String} {rel : Path} {obj : PyGroup ⊕ DatasetObj} :
      σ (g.handle.path ++ [n]) = some .dir → (g.handle.isSubGroup [n] σ).1 = .ok true →
      σ.Member ⟨g.handle.group [n], g.zarrFormat⟩ rel obj → σ.Member g (n :: rel) obj

/-- Every directory in the group, and in every group below it, is a group or a dataset that can be opened. -/
def Fs.Sound (σ : Fs) (g : PyGroup) : Prop :=
  ∀ g', g' = g ∨ (∃ rel, σ.Member g rel (.inl g')) → ∀ n, σ (g'.handle.path ++ [n]) = some .dir →
    ∃ obj, σ.Member g' [n] obj

/-- `entries` lists the directories of `σ`. -/
def Fs.Lists (σ : Fs) (entries : Path → List String) : Prop :=
  ∀ p, (entries p).Nodup ∧ ∀ n, n ∈ entries p ↔ σ (p ++ [n]) ≠ none

/-! ### S3 -/

/-- Listings do not fail either. -/
def Event.Steady (e : Event) : Prop := e.Reliable ∧ e.error .list = none

/-- What a call that changes nothing does when it finds the bucket `b`, whatever steady events happen: after a bounded
    number of requests it returns `r` (or throws it), unless it reports an error because a request has failed. -/
def S3M.Answers {α : Type} (x : S3M α) (b : Bucket) (r : Res α) : Prop :=
  ∃ n, ∀ es : List Event, (∀ e ∈ es, e.Steady) →
    (∃ es', es' <:+ es ∧ es.length ≤ n + es'.length ∧ x ⟨es, b⟩ = (some r, ⟨es', b⟩)) ∨
    (∃ es', es' <:+ es ∧ x ⟨es, b⟩ = (some (.throw .runtimeError), ⟨es', b⟩) ∧ ∃ e ∈ es, ∃ kind, e.error kind ≠ none) ∨
    (es.length < n ∧ x ⟨es, b⟩ = (none, ⟨[], b⟩))

/-- There are objects below `name`/`n`. -/
def Bucket.Child (b : Bucket) (name n : Key) : Prop := '/' ∉ n ∧ ∃ s, dirPrefix name ++ n ++ '/' :: s ∈ b.keys

/-- The members of a group and of every group below it: the names that lead to it, and the object. -/
inductive Bucket.Member (b : Bucket) : S3PyGroup → List Key → S3PyGroup ⊕ S3DatasetObj → Prop where
  | group {g : S3PyGroup} {n : Key} : b.Child g.handle.name n → (g.handle.isSubGroup n).Answers b (.ok true) →
      b.Member g [n] (.inl ⟨g.handle.child n, g.zarrFormat⟩)
  | dataset {g : S3PyGroup} {n : Key} {d : S3DatasetObj} : b.Child g.handle.name n →
      (g.handle.isSubGroup n).Answers b (.ok false) → (g.handle.openDataset n).Answers b (.ok d) →
      b.Member g [n] (.inr d)
  | deeper {g : S3PyGroup} {n : Key} {rel : List Key} {obj : S3PyGroup ⊕ S3DatasetObj} : b.Child g.handle.name n →
      (g.handle.isSubGroup n).Answers b (.ok true) → b.Member ⟨g.handle.child n, g.zarrFormat⟩ rel obj →
      b.Member g (n :: rel) obj

/-- What has objects below it in the group, and in every group below it, is a group or a dataset that can be opened;
    and no name is empty. -/
def Bucket.Sound (b : Bucket) (g : S3PyGroup) : Prop :=
  ∀ g', g' = g ∨ (∃ rel, b.Member g rel (.inl g')) → ∀ n, b.Child g'.handle.name n → n ≠ [] ∧ ∃ obj, b.Member g' [n] obj

/-- names with slashes between them -/
def slashed : List Key → Key
  | [] => []
  | [n] => n
  | n :: ns => n ++ '/' :: slashed ns

/-- where one gets from a directory along a relative path -/
def follow : Path → Path → Path
  | p, [] => p
  | p, n :: ns => follow (if n = ".." then p.dropLast else if n = "." then p else p ++ [n]) ns

end Z5
