import Verif.Model.Steps
import Verif.Spec.Attributes

/-!
# Vocabulary for crashes of metadata operations (C75)
-/

namespace Z5

/-- The file system after a crash that comes after `n` steps of a program (or after its end) -/
def FsProg.crash {α : Type} : Nat → FsProg α → Fs → Fs
  | n + 1, .act f c, σ => crash n (c σ) (f σ)
  | _, _, σ => σ

/-- `Target.change`, step by step -/
def Target.steps (D : Disk) : Target → AttrOp → FsProg Unit
  | group g, .write j => Stepwise.writeGroupAttributes D g j
  | group g, .remove k => Stepwise.removeGroupAttribute D g k
  | file g, .write j => Stepwise.writeFileAttributes D g j
  | file g, .remove k => Stepwise.removeFileAttribute D g k
  | dataset d, .write j => Stepwise.writeDatasetAttributes D d j
  | dataset d, .remove k => Stepwise.removeDatasetAttribute D d k

/-- `fs::remove_all` finds everything, and what is in a directory is removed before the directory. -/
structure Disk.Removes (D : Disk) (σ : Fs) (p : Path) : Prop where
  all : ∀ q, q ∈ D.order σ p ↔ p <+: q ∧ σ q ≠ none
  inner : (D.order σ p).Pairwise fun a b => ¬ a <+: b

/-- From `σ` to `σ'` nothing that existed changed, and what is new is a directory on the way to `p` or a metadata document
    in `p`. -/
structure Fs.OnlyNew (σ σ' : Fs) (p : Path) : Prop where
  kept : ∀ q, σ q ≠ none → σ' q = σ q
  new : ∀ q, σ q = none → σ' q ≠ none →
    (q <+: p ∧ σ' q = some .dir) ∨ ∃ name ∈ [".zgroup", ".zarray", "zarr.json", "attributes.json"], q = p ++ [name]

end Z5
