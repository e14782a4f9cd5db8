import Verif.Model.Bytes

/-!
# Specification: CRC-32C, bit by bit

The textbook shift-register definition (reflected form): message bits are fed least significant bit
of each byte first; the register is shifted right by one and the polynomial 0x82F63B78 is added
(xor) if the bit shifted out differs from the message bit.
-/

namespace Z5.Spec

/-- one clock of the shift register -/
def crcShift (c : BitVec 32) (bit : Bool) : BitVec 32 :=
  (c >>> 1) ^^^ (if (c.getLsbD 0 ^^ bit) then 0x82F63B78#32 else 0#32)

/-- bits of a byte, least significant first -/
def byteBits (b : Byte) : List Bool := (List.range 8).map b.getLsbD

/-- bits of a message -/
def messageBits (m : Bytes) : List Bool := m.flatMap byteBits

/-- CRC-32C of a message, continuing from `seed` -/
def crc32c (m : Bytes) (seed : BitVec 32 := 0#32) : BitVec 32 :=
  ~~~ ((messageBits m).foldl crcShift (~~~ seed))

end Z5.Spec
