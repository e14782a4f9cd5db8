/-!
# Outcomes and machine arithmetic

Shared vocabulary of the model.  Nothing here is specific to z5.
-/

namespace Z5

/-- C++ exception classes that the modelled code throws. -/
inductive Err where
  /-- `std::invalid_argument` -/
  | invalidArgument
  /-- `std::runtime_error` -/
  | runtimeError
  /-- `std::logic_error` -/
  | logicError
  /-- `std::out_of_range` (from `map::at`) -/
  | outOfRange
  /-- `std::length_error` / `std::bad_alloc` (vector too large) -/
  | lengthError
  /-- `nlohmann::json` type / parse errors, `std::bad_variant_access` -/
  | typeError
  /-- `std::filesystem::filesystem_error` -/
  | filesystemError
  /-- Python: `OSError`, `KeyError`, `AttributeError`.  (`ValueError` is `invalidArgument`, `RuntimeError` is
      `runtimeError`, `IndexError` is `outOfRange`, `TypeError` is `typeError`.) -/
  | osError
  | keyError
  | attributeError
  deriving DecidableEq, Repr

/-- Outcome of a modelled computation: a value, a C++ exception, or undefined behaviour
    (out-of-bounds access, division by zero, signed overflow). -/
inductive Res (α : Type u) where
  | ok (a : α)
  | throw (e : Err)
  | ub
  deriving DecidableEq, Repr

namespace Res

def bind {α : Type u} {β : Type v} : Res α → (α → Res β) → Res β
  | .ok a, f => f a
  | .throw e, _ => .throw e
  | .ub, _ => .ub

instance : Monad Res where
  pure := .ok
  bind := Res.bind

@[simp] theorem ok_bind {α β : Type u} (a : α) (f : α → Res β) : (Res.ok a >>= f) = f a := rfl
@[simp] theorem throw_bind {α β : Type u} (e : Err) (f : α → Res β) :
    ((Res.throw e : Res α) >>= f) = .throw e := rfl
@[simp] theorem ub_bind {α β : Type u} (f : α → Res β) : ((Res.ub : Res α) >>= f) = .ub := rfl
@[simp] theorem pure_eq {α : Type u} (a : α) : (pure a : Res α) = .ok a := rfl
@[simp] theorem bind_def_ok {α : Type u} {β : Type v} (a : α) (f : α → Res β) :
    Res.bind (.ok a) f = f a := rfl
@[simp] theorem bind_def_throw {α : Type u} {β : Type v} (e : Err) (f : α → Res β) :
    Res.bind (.throw e : Res α) f = .throw e := rfl
@[simp] theorem bind_def_ub {α : Type u} {β : Type v} (f : α → Res β) :
    Res.bind (.ub : Res α) f = .ub := rfl

instance : LawfulMonad Res := LawfulMonad.mk'
  (id_map := by intro α x; cases x <;> rfl)
  (pure_bind := by intros; rfl)
  (bind_assoc := by intro α β γ x f g; cases x <;> rfl)

theorem bind_eq_ok {α β : Type u} {x : Res α} {f : α → Res β} {b : β} :
    (x >>= f) = .ok b ↔ ∃ a, x = .ok a ∧ f a = .ok b := by
  cases x <;> simp

/-- `ok` is the only outcome that is neither an exception nor undefined behaviour. -/
def isOk {α : Type u} : Res α → Bool
  | .ok _ => true
  | _ => false

end Res

/-! ## Unsigned 64-bit (`std::size_t`) and 32-bit `int` arithmetic -/

/-- `a + b` on `std::size_t`. -/
def wadd (a b : Nat) : Nat := (a + b) % 2 ^ 64
/-- `a - b` on `std::size_t`. -/
def wsub (a b : Nat) : Nat := (a + (2 ^ 64 - b % 2 ^ 64)) % 2 ^ 64
/-- `a * b` on `std::size_t`. -/
def wmul (a b : Nat) : Nat := (a * b) % 2 ^ 64

/-- conversion `size_t → int` (C++20: modulo 2^32, two's complement). -/
def toInt32 (n : Nat) : Int :=
  if n % 2 ^ 32 < 2 ^ 31 then ((n % 2 ^ 32 : Nat) : Int) else ((n % 2 ^ 32 : Nat) : Int) - 2 ^ 32

/-- conversion `int → size_t` (modulo 2^64). -/
def intToSize (i : Int) : Nat := (i % 2 ^ 64).toNat

theorem wadd_eq {a b : Nat} (h : a + b < 2 ^ 64) : wadd a b = a + b := Nat.mod_eq_of_lt h
theorem wmul_eq {a b : Nat} (h : a * b < 2 ^ 64) : wmul a b = a * b := Nat.mod_eq_of_lt h
theorem wsub_eq {a b : Nat} (h : b ≤ a) (ha : a < 2 ^ 64) : wsub a b = a - b := by
  unfold wsub; omega

end Z5
