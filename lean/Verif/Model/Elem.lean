import Verif.Model.Bytes

/-!
# Element types and compressors

`Elem` stands for the template parameter `T` of the C++ code (one of the ten numeric types of
types/types.hxx:29-34).
-/

namespace Z5

/-- An element type: its size in bytes, its memory representation and the C++ `==`.  `ceq` is *not*
    assumed to be an equivalence or to imply equality (for floats `NaN != NaN`, `-0.0 == 0.0`). -/
structure Elem where
  T : Type
  size : Nat
  size_pos : 0 < size
  /-- memory representation -/
  toBytes : T → Bytes
  ofBytes : Bytes → T
  length_toBytes : ∀ x, (toBytes x).length = size
  ofBytes_toBytes : ∀ x, ofBytes (toBytes x) = x
  /-- every byte pattern is a value -/
  toBytes_ofBytes : ∀ b, b.length = size → toBytes (ofBytes b) = b
  /-- C++ `==` -/
  ceq : T → T → Bool
  /-- `T()` -/
  zero : T

/-- The unsigned integer types: `k` bytes, little endian. -/
def Elem.uint (k : Nat) (hk : 0 < k) : Elem where
  T := Fin (256 ^ k)
  size := k
  size_pos := hk
  toBytes x := leBytes k x.val
  ofBytes b := ⟨leNat b % 256 ^ k, Nat.mod_lt _ (Nat.pow_pos (by decide))⟩
  length_toBytes x := length_leBytes k _
  ofBytes_toBytes x := by
    apply Fin.ext
    simp only [leNat_leBytes, Nat.mod_mod]
    exact Nat.mod_eq_of_lt x.isLt
  toBytes_ofBytes b h := by
    subst h
    simp only [Nat.mod_eq_of_lt (leNat_lt b), leBytes_leNat]
  ceq a b := decide (a = b)
  zero := ⟨0, Nat.pow_pos (by decide)⟩

/-- A buffer of `T`, as bytes (`std::vector<T>` or `T*` memory). -/
def encodeList (E : Elem) (l : List E.T) : Bytes := l.flatMap E.toBytes

/-- `n` elements from a byte buffer. -/
def decodeList (E : Elem) : Nat → Bytes → List E.T
  | 0, _ => []
  | n + 1, b => E.ofBytes (b.take E.size) :: decodeList E n (b.drop E.size)

/-- Overwriting the first bytes of the buffer `dest` with `b` (a `memcpy` to its start, not larger than
    the buffer). -/
def overlay (E : Elem) (dest : List E.T) (b : Bytes) : List E.T :=
  decodeList E dest.length (b ++ (encodeList E dest).drop b.length)

/-- `std::vector<T>::resize` -/
def resize (E : Elem) (buf : List E.T) (n : Nat) : List E.T :=
  buf.take n ++ List.replicate (n - buf.length) E.zero

/-- util/util.hxx:72-79: the inner loop of `reverseEndiannessInplace`: byte `ii` of the result is byte
    `typeMax - ii` of the value (the index is always in range). -/
def reverseBytes (b : Bytes) : Bytes :=
  (List.range b.length).map fun ii => b.getD (b.length - 1 - ii) 0

/-- util/util.hxx:86-96: `reverseEndiannessInplace(T &)`. -/
def revElem (E : Elem) (x : E.T) : E.T := E.ofBytes (reverseBytes (E.toBytes x))

/-- util/util.hxx:69-82: `reverseEndiannessInplace(begin, end)` on the first `n` elements. -/
def revPrefix (E : Elem) (n : Nat) (l : List E.T) : Res (List E.T) :=
  if l.length < n then .ub else .ok ((l.take n).map (revElem E) ++ l.drop n)

/-- compression/compressor_base.hxx: `raw` or one of the library compressors, which see byte
    buffers; `decompress input capacity` returns the bytes written to the output buffer.  The classes in
    `compression/` are in `Model/Compressors.lean`. -/
inductive Codec where
  | raw
  | lib (compress : Bytes → Res Bytes) (decompress : Bytes → Nat → Res Bytes)

/-- What a compressor must do for chunks of up to `N` bytes: decompressing the output of a successful compression
    into a buffer of the size of the input gives back the input; compressed data is never empty; `compress` has no
    undefined behaviour.  (C68: the compressors of the library do this.) -/
def Codec.LawfulFor (N : Nat) : Codec → Prop
  | .raw => True
  | .lib c d =>
    (∀ x y, x ≠ [] → x.length ≤ N → c x = .ok y → d y x.length = .ok x) ∧
    (∀ x y, x ≠ [] → x.length ≤ N → c x = .ok y → y ≠ []) ∧
    (∀ x, x ≠ [] → x.length ≤ N → c x ≠ .ub)

/-- Whatever its input is, `decompress` into a buffer of elements of `size` bytes stays within its buffers. -/
def Codec.SafeFor (size : Nat) : Codec → Prop
  | .raw => True
  | .lib _ d => (∀ y n x, d y (n * size) = .ok x → x.length ≤ n * size) ∧ ∀ y n, d y (n * size) ≠ .ub

theorem Codec.LawfulFor.mono {C : Codec} {N N' : Nat} (h : C.LawfulFor N) (hN : N' ≤ N) : C.LawfulFor N' := by
  cases C with
  | raw => trivial
  | lib c d =>
    exact ⟨fun x y e l => h.1 x y e (Nat.le_trans l hN), fun x y e l => h.2.1 x y e (Nat.le_trans l hN),
      fun x e l => h.2.2 x e (Nat.le_trans l hN)⟩

end Z5
