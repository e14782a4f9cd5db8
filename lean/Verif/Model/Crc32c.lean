import Verif.Model.Bytes

/-!
# Model of `util/crc32c.hxx`
-/

namespace Z5

/-- util/crc32c.hxx:23: `crc = (crc & 1u) ? (crc >> 1) ^ 0x82F63B78u : (crc >> 1)`. -/
def crcTableBit (crc : BitVec 32) : BitVec 32 :=
  if crc &&& 1#32 ≠ 0#32 then (crc >>> 1) ^^^ 0x82F63B78#32 else crc >>> 1

/-- util/crc32c.hxx:22-24: the inner loop `for k < n`. -/
def crcTableLoop : Nat → BitVec 32 → BitVec 32
  | 0, crc => crc
  | k + 1, crc => crcTableLoop k (crcTableBit crc)

/-- util/crc32c.hxx:17-30 `table()`: entry `i`.  The table is modelled as the function from the
    index to its entry; the index used in the loop is masked with 0xFF, so it is in range. -/
def crcTable (i : BitVec 32) : BitVec 32 := crcTableLoop 8 i

/-- util/crc32c.hxx:41: `crc = tbl[(crc ^ p[i]) & 0xFFu] ^ (crc >> 8)`. -/
def crcByte (crc : BitVec 32) (p : Byte) : BitVec 32 :=
  crcTable ((crc ^^^ p.setWidth 32) &&& 0xFF#32) ^^^ (crc >>> 8)

/-- util/crc32c.hxx:36-44 `crc32c(data, n, seed)`. -/
def crc32c (data : Bytes) (seed : BitVec 32 := 0#32) : BitVec 32 :=
  ~~~ (data.foldl crcByte (~~~ seed))

end Z5
