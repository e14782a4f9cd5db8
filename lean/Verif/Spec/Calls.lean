import Verif.Spec.Dataset
import Verif.Spec.History
import Verif.Model.Access
import Verif.Props.Copy

/-!
# What it means that a client has performed a sequence of calls on a dataset

A call of the multi-threaded API creates tasks; its threads execute them in *some* interleaving; the
call has succeeded if all tasks have finished without exception.
-/

namespace Z5
open Spec Prog

variable {E : Elem}

/-- all tasks have finished without exception under schedule `is`, and the store is now `σ'` -/
def Completes (ts : List (Prog Unit)) (is : List Nat) (σ σ' : Store) : Prop :=
  ∃ rs, Finished (interleave is (ts, σ)).1 rs ∧ (∀ r ∈ rs, r = .ok ()) ∧
    σ' = (interleave is (ts, σ)).2

/-- One successful modifying call on the dataset, taking the store from `σ` to `σ'`, and what it was
    asked to write.  `scratch` is whatever the threads' reused buffers contain, `is` the schedule. -/
inductive Performs (ds : Dataset E) : Write E.T → Store → Store → Prop
  /-- `writeSubarray` of a (possibly strided) array view -/
  | subarray {σ σ'} (inBuf : List E.T) (inView : View) (off : List Nat) (val : List Nat → E.T)
      (scratch : Nat → List E.T) (ts : List (Prog Unit)) (is : List Nat) :
      RegionOk ds.shape off inView.shape → Props.FitsIn inView inBuf.length →
      (∀ i, InBox i inView.shape → inBuf[inView.base + dot i inView.strides]? = some (val i)) →
      ds.writeSubarray inBuf inView off scratch = .ok ts → Completes ts is σ σ' →
      Performs ds ⟨off, inView.shape, val⟩ σ σ'
  /-- `writeScalar` -/
  | scalar {σ σ'} (off shape : List Nat) (v : E.T) (scratch : Nat → List E.T) (ts : List (Prog Unit))
      (is : List Nat) :
      RegionOk ds.shape off shape → ds.writeScalar off shape v scratch = .ok ts →
      Completes ts is σ σ' → Performs ds ⟨off, shape, fun _ => v⟩ σ σ'
  /-- `writeChunk` with a buffer of the stored size -/
  | chunk {σ σ'} (c : List Nat) (data : List E.T) (val : List Nat → E.T) :
      data.length = prod (ds.stored c) →
      (∀ i, InBox i (ds.stored c) → data[ravel (ds.stored c) i]? = some (val i)) →
      run (ds.writeChunk c data) σ = (.ok (), σ') →
      Performs ds ⟨mulV c ds.chunkShape, ds.stored c, val⟩ σ σ'
  /-- `removeChunk` -/
  | remove {σ σ'} (c : List Nat) : InGrid ds.shape ds.chunkShape c →
      run (ds.removeChunk c) σ = (.ok (), σ') →
      Performs ds ⟨mulV c ds.chunkShape, ds.stored c, fun _ => ds.fill⟩ σ σ'

/-- The store `σ` is the result of successful calls that wrote `ws`, starting from a dataset without
    any chunk. -/
inductive Reaches (ds : Dataset E) : List (Write E.T) → Store → Prop
  | empty {σ} : (∀ c, InGrid ds.shape ds.chunkShape c → σ (ds.chunkKey c) = none) → Reaches ds [] σ
  | step {ws w σ σ'} : Reaches ds ws σ → Performs ds w σ σ' → Reaches ds (ws ++ [w]) σ'

/-- Successful calls that wrote `ws` took the store from `σ` to `σ'`. -/
inductive Updates (ds : Dataset E) : List (Write E.T) → Store → Store → Prop
  | nil {σ} : Updates ds [] σ σ
  | step {ws w σ τ σ'} : Updates ds ws σ τ → Performs ds w τ σ' → Updates ds (ws ++ [w]) σ σ'

/-- The calls of the API that write a region. -/
inductive RegionCall (E : Elem) where
  /-- `writeSubarray` -/
  | copy (inBuf : List E.T) (inView : View) (off : List Nat)
  /-- `writeScalar` -/
  | scalar (off shape : List Nat) (v : E.T)

namespace RegionCall

def off : RegionCall E → List Nat
  | copy _ _ off => off
  | scalar off _ _ => off

def shape : RegionCall E → List Nat
  | copy _ inView _ => inView.shape
  | scalar _ shape _ => shape

/-- the value the call is to write at position `i` of its region -/
def value : RegionCall E → List Nat → Option E.T
  | copy inBuf inView _, i => inBuf[inView.base + dot i inView.strides]?
  | scalar _ _ v, _ => some v

/-- the tasks the call creates -/
def start (ds : Dataset E) : RegionCall E → (Nat → List E.T) → Res (List (Prog Unit))
  | copy inBuf inView off, scratch => ds.writeSubarray inBuf inView off scratch
  | scalar off shape v, scratch => ds.writeScalar off shape v scratch

/-- the region lies in the dataset and the input view inside the input buffer -/
def Valid (ds : Dataset E) (call : RegionCall E) : Prop :=
  RegionOk ds.shape call.off call.shape ∧
  match call with
  | copy inBuf inView _ => Props.FitsIn inView inBuf.length
  | scalar .. => True

/-- no chunk overlaps the regions of both calls -/
def Disjoint (ds : Dataset E) (a b : RegionCall E) : Prop :=
  ∀ c x y, InRegion x a.off a.shape → InRegion y b.off b.shape →
    InChunk ds.shape ds.chunkShape c x → ¬ InChunk ds.shape ds.chunkShape c y

end RegionCall

/-- Calls executed one after the other, each finishing under some schedule. -/
inductive OneByOne {α : Type} : List (List (Prog α)) → Store → Store → Prop
  | nil {σ} : OneByOne [] σ σ
  | cons {ts tss σ σ'} (is : List Nat) (rs : List (Res α)) :
      Finished (interleave is (ts, σ)).1 rs → OneByOne tss (interleave is (ts, σ)).2 σ' →
      OneByOne (ts :: tss) σ σ'

/-- The outcomes `rs` of the tasks of a `readSubarray` call end up in the output buffer: no task
    failed, and their memory writes were carried out in some order, giving `out'`. -/
def Delivers {T : Type} (out : List T) (rs : List (Res (List (Nat × T)))) (out' : List T) : Prop :=
  ∃ (ps : List (List (Nat × T))) (order : List (Nat × T)), rs = ps.map Res.ok ∧
    order.Perm ps.flatten ∧ applyPokes order out = .ok out'

/-- "Reading from the store `σ` gives the array `A`, except in the chunks `bad`": every valid region read
    that does not overlap a chunk in `bad`, into every output view, with every content of the scratch
    buffers, under every schedule and every order of the memory writes, succeeds, sets exactly the
    elements of the output view to the elements of `A`, and changes nothing in the store. -/
def ReadsAsExcept (ds : Dataset E) (σ : Store) (A : List Nat → E.T) (bad : List Nat → Prop) : Prop :=
  ∀ (off : List Nat) (out : View) (outBuf : List E.T) (scratch : Nat → List E.T),
    RegionOk ds.shape off out.shape → Props.FitsIn out outBuf.length → Props.NoAlias out →
    (∀ c x, bad c → InRegion x off out.shape → ¬ InChunk ds.shape ds.chunkShape c x) →
    ∃ ts, ds.readSubarray out off scratch = .ok ts ∧
      ∀ is rs, Finished (interleave is (ts, σ)).1 rs →
        (interleave is (ts, σ)).2 = σ ∧ (∃ out', Delivers outBuf rs out') ∧
        ∀ out', Delivers outBuf rs out' → out'.length = outBuf.length ∧
          (∀ i, InBox i out.shape → out'[out.base + dot i out.strides]? = some (A (addV off i))) ∧
          (∀ a, (∀ i, InBox i out.shape → out.base + dot i out.strides ≠ a) →
            out'[a]? = outBuf[a]?)

/-- "Reading from the store `σ` gives the array `A`": every valid region read, into every output view,
    with every content of the scratch buffers, under every schedule and every order of the memory
    writes, succeeds, sets exactly the elements of the output view to the elements of `A`, and changes
    nothing in the store. -/
def ReadsAs (ds : Dataset E) (σ : Store) (A : List Nat → E.T) : Prop :=
  ∀ (off : List Nat) (out : View) (outBuf : List E.T) (scratch : Nat → List E.T),
    RegionOk ds.shape off out.shape → Props.FitsIn out outBuf.length → Props.NoAlias out →
    ∃ ts, ds.readSubarray out off scratch = .ok ts ∧
      ∀ is rs, Finished (interleave is (ts, σ)).1 rs →
        (interleave is (ts, σ)).2 = σ ∧ (∃ out', Delivers outBuf rs out') ∧
        ∀ out', Delivers outBuf rs out' → out'.length = outBuf.length ∧
          (∀ i, InBox i out.shape → out'[out.base + dot i out.strides]? = some (A (addV off i))) ∧
          (∀ a, (∀ i, InBox i out.shape → out.base + dot i out.strides ≠ a) →
            out'[a]? = outBuf[a]?)

/-- C++ `==` of the element type is equality (all types but `float` and `double`) -/
def Elem.Faithful (E : Elem) : Prop := ∀ a b, E.ceq a b = true ↔ a = b

/-- the compressor never reports an error for chunks of up to `N` bytes -/
def Codec.TotalFor (N : Nat) : Codec → Prop
  | .raw => True
  | .lib c _ => ∀ x, x ≠ [] → x.length ≤ N → ∃ y, c x = .ok y

end Z5
