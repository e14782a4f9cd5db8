import Verif.Model.Pickle
import Verif.Spec.Container

/-!
# What users see of the objects of the Python module (C69)
-/

namespace Z5

namespace PyObj

/-- The directory of the object -/
def path : PyObj → Path
  | file g _ => g.handle.path
  | group _ g _ _ => g.handle.path
  | dataset _ d _ _ => d.handle.path

/-- The mode that decides whether the object can be written to -/
def mode : PyObj → FileMode
  | file g _ => g.handle.mode
  | group _ g _ _ => g.handle.mode
  | dataset _ d _ _ => d.handle.mode

/-- `n_threads` -/
def threads : PyObj → Nat
  | dataset _ _ _ t => t
  | _ => 1

end PyObj

/-- `o'` is as `o`: the directory, the mode, the file (path and mode), the separator and the name.  A name in which two
    slashes follow each other, as after `f['g']['/h']`, is not required to be the same. -/
structure PyObj.Like (o o' : PyObj) : Prop where
  path : o'.path = o.path
  mode : o'.mode = o.mode
  file : o'.root.1.handle = o.root.1.handle
  separator : o'.root.2 = o.root.2
  name : ¬ ['/', '/'] <:+: o.name → o'.name = o.name

/-- A name with at least one component, whose components are texts without slashes -/
structure PyName.Proper (n : PyName) : Prop where
  nonempty : n.parts ≠ []
  parts : ∀ p ∈ n.parts, p ≠ "" ∧ '/' ∉ p.toList

/-- The objects that come from the file `f` by calls that succeeded, at any time and in any state of the file system; the
    number of threads can be changed.  Names that are created have no leading slash. -/
inductive Obtained (f : PyObj) : PyObj → Prop where
  | self : Obtained f f
  | getItem {o o' : PyObj} {n : PyName} {σ σ' : Fs} : Obtained f o → n.Proper → o.getItem n σ = (.ok o', σ') → Obtained f o'
  | createGroup {o o' : PyObj} {n : PyName} {σ σ' : Fs} : Obtained f o → n.Proper → n.absolute = false →
      o.createGroup n σ = (.ok o', σ') → Obtained f o'
  | requireGroup {o o' : PyObj} {key : Path} {σ σ' : Fs} : Obtained f o → PyName.Proper { parts := key } →
      o.requireGroup key σ = (.ok o', σ') → Obtained f o'
  | createDataset {o o' : PyObj} {n : PyName} {a : PyCreateArgs} {t : Nat} {σ σ' : Fs} : Obtained f o → n.Proper →
      n.absolute = false → o.createDataset n a t σ = (.ok o', σ') → Obtained f o'
  | requireDataset {o o' : PyObj} {key : Path} {a : PyCreateArgs} {t : Nat} {σ σ' : Fs} : Obtained f o →
      PyName.Proper { parts := key } → o.requireDataset key a t σ = (.ok o', σ') → Obtained f o'
  | threads {o : PyObj} (t : Nat) : Obtained f o → Obtained f (o.setThreads t)

end Z5
