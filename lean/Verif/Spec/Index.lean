import Verif.Model.Index

/-!
# What numpy selects

For indices of integers, slices of unit step and ellipses.
-/

namespace Z5.Spec

/-- A bound as it is counted from the front: negative ones are counted from the end of the axis. -/
def wrap (b : Int) (n : Nat) : Int := if b < 0 then b + n else b

/-- What is selected along an axis: one position (and the axis is not one of the result), or several -/
inductive AxisSel where
  | point (k : Nat)
  | range (ks : List Nat)
  deriving DecidableEq, Repr

/-- The selection of an item along an axis of length `n`.  `none`: an integer that is out of range (or a step,
    which numpy supports and the library says it does not). -/
def npItem : PyItem → Nat → Option AxisSel
  | .int i, n => if -(n : Int) ≤ i ∧ i < n then some (.point (wrap i n).toNat) else none
  | .slice a b s, n =>
    if s = none ∨ s = some 1 then
      some (.range ((List.range n).filter fun k =>
        a.all (fun x => decide (wrap x n ≤ k)) && b.all (fun y => decide ((k : Int) < wrap y n))))
    else none
  | .ellipsis, _ => none

/-- The items for all axes: the ellipsis, or the end of the index if there is none, stands for as many full
    slices as there are axes without an item.  `none`: several ellipses, or more items than axes. -/
def npExpand (index : List PyItem) (ndim : Nat) : Option (List PyItem) :=
  let items := index.filter (· ≠ .ellipsis)
  if index.count .ellipsis > 1 ∨ items.length > ndim then none
  else
    let index := if .ellipsis ∈ index then index else index ++ [.ellipsis]
    some (index.flatMap fun it =>
      if it = .ellipsis then List.replicate (ndim - items.length) (.slice none none none) else [it])

/-- The selections of the items along the axes -/
def npAxes : List PyItem → List Nat → Option (List AxisSel)
  | [], [] => some []
  | it :: its, n :: ns =>
    match npItem it n, npAxes its ns with
    | some s, some ss => some (s :: ss)
    | _, _ => none
  | _, _ => none

/-- What an index selects of an array -/
def npSelect (index : List PyItem) (shape : List Nat) : Option (List AxisSel) :=
  (npExpand index shape.length).bind fun items => npAxes items shape

/-- The shape of the result -/
def resultShape : List AxisSel → List Nat
  | [] => []
  | .point _ :: ss => resultShape ss
  | .range ks :: ss => ks.length :: resultShape ss

/-- The element `j` of the result is the element `x` of the array. -/
inductive Picks : List AxisSel → List Nat → List Nat → Prop where
  | nil : Picks [] [] []
  | point {k ss j x} : Picks ss j x → Picks (.point k :: ss) j (k :: x)
  | range {ks i k ss j x} : ks[i]? = some k → Picks ss j x → Picks (.range ks :: ss) (i :: j) (k :: x)

/-- The shape of the region that is selected, in which the axes of integers count one -/
def regionShape : List AxisSel → List Nat
  | [] => []
  | .point _ :: ss => 1 :: regionShape ss
  | .range ks :: ss => ks.length :: regionShape ss

/-- Where the library follows numpy: no integer is minus the length of the axis, and no slice starts before
    that. -/
def Tame : PyItem → Nat → Prop
  | .int i, n => i ≠ -(n : Int)
  | .slice a _ _, n => ∀ x ∈ a, -(n : Int) ≤ x
  | .ellipsis, _ => True

/-- ... for all items of an index -/
def TameIndex (index : List PyItem) (shape : List Nat) : Prop :=
  ∀ items, npExpand index shape.length = some items → ∀ p ∈ items.zip shape, Tame p.1 p.2

/-- A shape without the axes of length one at its front and at its back -/
def trimmed (s : List Nat) : List Nat := ((s.dropWhile (· = 1)).reverse.dropWhile (· = 1)).reverse

/-- A shape without the axes of length one -/
def squeezed (s : List Nat) : List Nat := s.filter (· ≠ 1)

/-- The index `i` into an array of shape `s` without the axes of length one -/
def squeezedIndex : List Nat → List Nat → List Nat
  | n :: s, x :: i => if n = 1 then squeezedIndex s i else x :: squeezedIndex s i
  | _, _ => []

end Z5.Spec
