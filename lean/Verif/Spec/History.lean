import Verif.Spec.Grid

/-!
# Specification: arrays that are written region by region

Independent of the model.  An array is a function from coordinates to values; writing a region
replaces the values of its elements and nothing else.
-/

namespace Z5.Spec

variable {T : Type}

/-- The array after writing `val` over the region that starts at `off` and has extents `shape`;
    `val` is indexed from the start of the region. -/
def override (A : List Nat → T) (off shape : List Nat) (val : List Nat → T) : List Nat → T :=
  fun x => if InRegion x off shape then val (subV x off) else A x

/-- One write: a region and its new values. -/
structure Write (T : Type) where
  off : List Nat
  shape : List Nat
  val : List Nat → T

/-- The array after a sequence of writes (oldest first) onto the array `A`: at every element the
    last write that covers it wins. -/
def replay (A : List Nat → T) : List (Write T) → List Nat → T
  | [] => A
  | w :: ws => replay (override A w.off w.shape w.val) ws

/-- `a` is the value `e`, except that a value that compares equal (`eq`, C++ `==`) to the fill value
    may come back as the fill value.  For integer types this is `a = e` (see `sameOrFill_iff`); for
    floats it allows `-0.0` to come back as `0.0`. -/
def SameOrFill (eq : T → T → Bool) (fill a e : T) : Prop :=
  a = e ∨ (eq e fill = true ∧ a = fill)

theorem sameOrFill_iff {eq : T → T → Bool} (h : ∀ a b, eq a b = true → a = b) {fill a e : T} :
    SameOrFill eq fill a e ↔ a = e := by
  constructor
  · rintro (h1 | ⟨h1, h2⟩)
    · exact h1
    · rw [h _ _ h1, h2]
  · exact Or.inl

theorem SameOrFill.trans {eq : T → T → Bool} {fill a b e : T} (h1 : SameOrFill eq fill a b)
    (h2 : SameOrFill eq fill b e) : SameOrFill eq fill a e := by
  rcases h1 with rfl | ⟨h1, rfl⟩
  · exact h2
  · rcases h2 with rfl | ⟨h2, _⟩
    · exact Or.inr ⟨h1, rfl⟩
    · exact Or.inr ⟨h2, rfl⟩

end Z5.Spec
