import Verif.Basic

/-!
# Bytes and integers in byte buffers
-/

namespace Z5

/-- `char` / `unsigned char` -/
abbrev Byte := BitVec 8
/-- `std::vector<char>` -/
abbrev Bytes := List Byte

/-- util/sharding.hxx:88-99 `writeLE64` (`k = 8`), `writeLE32` (`k = 4`): byte `i` is
    `(v >> 8 i) & 0xFF`.  Also the in-memory bytes of a `k`-byte unsigned integer on the
    (little-endian) host. -/
def leBytes : Nat → Nat → Bytes
  | 0, _ => []
  | k + 1, n => BitVec.ofNat 8 n :: leBytes k (n / 256)

/-- util/sharding.hxx:76-87 `readLE64`, `readLE32`: `Σ byte_i << 8 i` (the or of disjoint bits is
    written as a sum). -/
def leNat : Bytes → Nat
  | [] => 0
  | b :: bs => b.toNat + 256 * leNat bs

/-- Bytes `[off, off + len)` of a buffer; reading past the end is undefined behaviour. -/
def slice (b : Bytes) (off len : Nat) : Res Bytes :=
  if off + len ≤ b.length then .ok ((b.drop off).take len) else .ub

@[simp] theorem length_leBytes : ∀ k n, (leBytes k n).length = k
  | 0, _ => rfl
  | k + 1, n => by simp [leBytes, length_leBytes k]

theorem leNat_leBytes : ∀ k n, leNat (leBytes k n) = n % 256 ^ k
  | 0, n => by simp [leBytes, leNat, Nat.mod_one]
  | k + 1, n => by
    rw [leBytes, leNat, leNat_leBytes k, Nat.pow_succ, Nat.mul_comm (256 ^ k), Nat.mod_mul]
    simp

theorem leNat_lt : ∀ b : Bytes, leNat b < 256 ^ b.length
  | [] => by simp [leNat]
  | x :: b => by
    have := leNat_lt b
    have hx : x.toNat < 256 := x.isLt
    rw [leNat, List.length_cons, Nat.pow_succ]; omega

theorem leBytes_leNat : ∀ b : Bytes, leBytes b.length (leNat b) = b
  | [] => rfl
  | x :: b => by
    have hx : x.toNat < 256 := x.isLt
    rw [List.length_cons, leBytes, leNat]
    have h1 : (x.toNat + 256 * leNat b) / 256 = leNat b := by omega
    rw [h1, leBytes_leNat b]
    congr 1
    apply BitVec.eq_of_toNat_eq
    simp; omega

theorem slice_eq_ok {b : Bytes} {off len : Nat} {r : Bytes} :
    slice b off len = .ok r ↔ off + len ≤ b.length ∧ r = (b.drop off).take len := by
  unfold slice
  split
  · simp [*, eq_comm]
  · simp [*]

end Z5
