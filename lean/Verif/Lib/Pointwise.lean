import Verif.Lib.Nd

/-!
# Pointwise relations and operations on coordinate lists
-/

namespace Z5

/-- the three lists have the same length and `P` holds at every position -/
def All₃ (P : Nat → Nat → Nat → Prop) : List Nat → List Nat → List Nat → Prop
  | [], [], [] => True
  | a :: as, b :: bs, c :: cs => P a b c ∧ All₃ P as bs cs
  | _, _, _ => False

/-- the four lists have the same length and `P` holds at every position -/
def All₄ (P : Nat → Nat → Nat → Nat → Prop) : List Nat → List Nat → List Nat → List Nat → Prop
  | [], [], [], [] => True
  | a :: as, b :: bs, c :: cs, d :: ds => P a b c d ∧ All₄ P as bs cs ds
  | _, _, _, _ => False

/-- the two lists have the same length and `P` holds at every position -/
def All₂ (P : Nat → Nat → Prop) : List Nat → List Nat → Prop
  | [], [] => True
  | a :: as, b :: bs => P a b ∧ All₂ P as bs
  | _, _ => False

@[simp] theorem all₂_nil (P) : All₂ P [] [] = True := rfl
@[simp] theorem all₂_cons (P a as b bs) : All₂ P (a :: as) (b :: bs) = (P a b ∧ All₂ P as bs) := rfl
@[simp] theorem all₂_nil_cons (P b bs) : All₂ P [] (b :: bs) = False := rfl
@[simp] theorem all₂_cons_nil (P b bs) : All₂ P (b :: bs) [] = False := rfl

@[simp] theorem all₃_nil (P) : All₃ P [] [] [] = True := rfl
@[simp] theorem all₃_cons (P a as b bs c cs) :
    All₃ P (a :: as) (b :: bs) (c :: cs) = (P a b c ∧ All₃ P as bs cs) := rfl
@[simp] theorem all₃_nil_left (P b c) : All₃ P [] b c = (b = [] ∧ c = []) := by
  cases b <;> cases c <;> simp [All₃]
@[simp] theorem all₃_nil_mid (P a c) : All₃ P a [] c = (a = [] ∧ c = []) := by
  cases a <;> cases c <;> simp [All₃]
@[simp] theorem all₃_nil_right (P a b) : All₃ P a b [] = (a = [] ∧ b = []) := by
  cases a <;> cases b <;> simp [All₃]

@[simp] theorem all₄_nil (P) : All₄ P [] [] [] [] = True := rfl
@[simp] theorem all₄_cons (P a as b bs c cs d ds) :
    All₄ P (a :: as) (b :: bs) (c :: cs) (d :: ds) = (P a b c d ∧ All₄ P as bs cs ds) := rfl

theorem All₂.length_eq {P} : ∀ {a b}, All₂ P a b → a.length = b.length
  | [], [], _ => rfl
  | _ :: as, _ :: bs, h => by simp [All₂.length_eq (a := as) (b := bs) h.2]

theorem All₃.length_eq {P} : ∀ {a b c}, All₃ P a b c → a.length = b.length ∧ b.length = c.length
  | [], [], [], _ => ⟨rfl, rfl⟩
  | _ :: as, _ :: bs, _ :: cs, h => by
    have := All₃.length_eq (a := as) (b := bs) (c := cs) h.2
    simp [this.1, this.2]

theorem All₄.length_eq {P} : ∀ {a b c d}, All₄ P a b c d →
    a.length = b.length ∧ b.length = c.length ∧ c.length = d.length
  | [], [], [], [], _ => ⟨rfl, rfl, rfl⟩
  | _ :: as, _ :: bs, _ :: cs, _ :: ds, h => by
    have := All₄.length_eq (a := as) (b := bs) (c := cs) (d := ds) h.2
    simp [this.1, this.2.1, this.2.2]

instance decAll₂ (P) [∀ a b, Decidable (P a b)] : (a b : List Nat) → Decidable (All₂ P a b)
  | [], [] => isTrue trivial
  | a :: as, b :: bs => @instDecidableAnd _ _ _ (decAll₂ P as bs)
  | [], _ :: _ => isFalse id
  | _ :: _, [] => isFalse id

instance decAll₃ (P) [∀ a b c, Decidable (P a b c)] :
    (a b c : List Nat) → Decidable (All₃ P a b c)
  | [], [], [] => isTrue trivial
  | a :: as, b :: bs, c :: cs => @instDecidableAnd _ _ _ (decAll₃ P as bs cs)
  | [], [], _ :: _ => isFalse id
  | [], _ :: _, _ => isFalse id
  | _ :: _, [], _ => isFalse id
  | _ :: _, _ :: _, [] => isFalse id

instance decAll₄ (P) [∀ a b c d, Decidable (P a b c d)] :
    (a b c d : List Nat) → Decidable (All₄ P a b c d)
  | [], [], [], [] => isTrue trivial
  | a :: as, b :: bs, c :: cs, d :: ds => @instDecidableAnd _ _ _ (decAll₄ P as bs cs ds)
  | [], [], [], _ :: _ => isFalse id
  | [], [], _ :: _, _ => isFalse id
  | [], _ :: _, _, _ => isFalse id
  | _ :: _, [], _, _ => isFalse id
  | _ :: _, _ :: _, [], _ => isFalse id
  | _ :: _, _ :: _, _ :: _, [] => isFalse id

/-- pointwise sum -/
def addV (a b : List Nat) : List Nat := List.zipWith (· + ·) a b
/-- pointwise (truncated) difference -/
def subV (a b : List Nat) : List Nat := List.zipWith (· - ·) a b
/-- pointwise product -/
def mulV (a b : List Nat) : List Nat := List.zipWith (· * ·) a b
/-- pointwise quotient -/
def divV (a b : List Nat) : List Nat := List.zipWith (· / ·) a b
/-- pointwise minimum -/
def minV (a b : List Nat) : List Nat := List.zipWith min a b

@[simp] theorem addV_nil : addV [] [] = [] := rfl
@[simp] theorem addV_cons (a as b bs) : addV (a :: as) (b :: bs) = (a + b) :: addV as bs := rfl
@[simp] theorem subV_nil : subV [] [] = [] := rfl
@[simp] theorem subV_cons (a as b bs) : subV (a :: as) (b :: bs) = (a - b) :: subV as bs := rfl
@[simp] theorem mulV_nil : mulV [] [] = [] := rfl
@[simp] theorem mulV_cons (a as b bs) : mulV (a :: as) (b :: bs) = (a * b) :: mulV as bs := rfl
@[simp] theorem divV_nil : divV [] [] = [] := rfl
@[simp] theorem divV_cons (a as b bs) : divV (a :: as) (b :: bs) = (a / b) :: divV as bs := rfl
@[simp] theorem minV_nil : minV [] [] = [] := rfl
@[simp] theorem minV_cons (a as b bs) : minV (a :: as) (b :: bs) = (min a b) :: minV as bs := rfl

theorem dot_addV : ∀ {a b s : List Nat}, a.length = b.length →
    dot (addV a b) s = dot a s + dot b s
  | [], [], s, _ => by simp
  | _ :: _, _ :: _, [], _ => by simp
  | a :: as, b :: bs, s :: ss, h => by
    have := dot_addV (a := as) (b := bs) (s := ss) (by simpa using h)
    rw [addV_cons, dot_cons, dot_cons, dot_cons, this, Nat.add_mul]; omega

end Z5
