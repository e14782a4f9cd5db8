import Verif.Model.Functions
import Verif.Spec.Dataset

/-!
# Vocabulary for the functions of `util/functions.hxx`
-/

namespace Z5
open Spec Prog

variable {E : Elem}

/-- A chunk is stored and holds the elements `data`: `chunkExists` says so, and `readChunk` into a buffer of the
    right size, whatever its content, returns `data`.  The right size is the size of a stored chunk, or for a varlen
    chunk the length that `checkVarlenChunk` reports.  Nothing of this changes the store. -/
def HoldsElements (exist : Prog Bool) (checkVarlen : Prog (Bool × Nat))
    (read : List E.T → Prog (Bool × List E.T)) (size : Nat) (σ : Store) (data : List E.T) : Prop :=
  run exist σ = (.ok true, σ) ∧
  ∃ (varlen : Bool) (n : Nat), run checkVarlen σ = (.ok (varlen, n), σ) ∧
    data.length = (if varlen then n else size) ∧
    ∀ buf : List E.T, buf.length = data.length → run (read buf) σ = (.ok (varlen, data), σ)

/-- chunk `c` is stored and holds the elements `data` -/
def StoredAs (ds : Dataset E) (σ : Store) (c : List Nat) (data : List E.T) : Prop :=
  HoldsElements (ds.chunkExists c) (ds.checkVarlenChunk c) (ds.readChunk c) (prod (ds.stored c)) σ data

/-- chunk `c` of a sharded dataset is stored and holds the elements `data` -/
def ShardStoredAs (ds : ShardedDataset E) (σ : Store) (c : List Nat) (data : List E.T) : Prop :=
  HoldsElements (ds.chunkExists c) (ds.checkVarlenChunk c) (ds.readChunk c) (prod ds.chunkShape) σ data

/-- `content` says which chunks are stored and what elements they hold. -/
def ContentIs (ds : Dataset E) (σ : Store) (content : List Nat → Option (List E.T)) : Prop :=
  ∀ c, InGrid ds.shape ds.chunkShape c →
    match content c with
    | none => run (ds.chunkExists c) σ = (.ok false, σ)
    | some data => StoredAs ds σ c data

/-- the same for a sharded dataset -/
def ShardContentIs (ds : ShardedDataset E) (σ : Store) (content : List Nat → Option (List E.T)) : Prop :=
  ∀ c, InGrid ds.shape ds.chunkShape c →
    match content c with
    | none => run (ds.chunkExists c) σ = (.ok false, σ)
    | some data => ShardStoredAs ds σ c data

/-- all elements of the stored chunks -/
def Present (shape chunkShape : List Nat) (content : List Nat → Option (List E.T)) (a : E.T) : Prop :=
  ∃ c data, InGrid shape chunkShape c ∧ content c = some data ∧ a ∈ data

/-- On the values in `P`, C++ `<` is a strict weak order that goes with C++ `==` (all values of the integer types;
    all values but NaN of the floating point types). -/
structure OrderedOn (E : Elem) (lt : E.T → E.T → Bool) (P : E.T → Prop) : Prop where
  trans : ∀ a b c, P a → P b → P c → lt a b = true → lt b c = true → lt a c = true
  same : ∀ a b, P a → P b → (E.ceq a b = true ↔ lt a b = false ∧ lt b a = false)
  refl : ∀ a, P a → E.ceq a a = true
  ceqTrans : ∀ a b c, P a → P b → P c → E.ceq a b = true → E.ceq b c = true → E.ceq a c = true

/-- all elements are one value, the given one if one is given -/
def OneValue (E : Elem) (value : Option E.T) (data : List E.T) : Prop :=
  data ≠ [] ∧ (∀ a ∈ data, ∀ b ∈ data, E.ceq a b = true) ∧ ∀ v, value = some v → ∀ a ∈ data, E.ceq a v = true

/-- a value equal to `v` is in the list -/
def Occurs (E : Elem) (l : List E.T) (v : E.T) : Prop := ∃ z ∈ l, E.ceq z v = true

/-- how often a value equal to `v` is in the list -/
def occurrences (E : Elem) (l : List E.T) (v : E.T) : Nat := l.countP fun z => E.ceq z v

/-- how often a value equal to `v` is in the stored chunks among `cs` -/
def occurrencesIn (cs : List (List Nat)) (content : List Nat → Option (List E.T)) (v : E.T) : Nat :=
  (cs.map fun c => ((content c).map fun data => occurrences E data v).getD 0).sum

/-- the sum of the counts of the entries for values equal to `v` -/
def mapCount (E : Elem) (m : List (E.T × Nat)) (v : E.T) : Nat := ((m.filter fun e => E.ceq e.1 v).map Prod.snd).sum

end Z5
