/-!
Independent definition of CRC-32 (ISO-HDLC / IEEE 802.3), bit by bit: reflected polynomial
0xEDB88320, register initialised to all ones, least significant bit of each byte first,
final complement.
-/
namespace Verif.Crc32

/-- Bits of a byte, least significant first. -/
def bits (b : UInt8) : List Bool := (List.range 8).map b.toNat.testBit

/-- Shift register step for one message bit. -/
def bitStep (c : BitVec 32) (bit : Bool) : BitVec 32 :=
  if (c.getLsbD 0 ^^ bit) then (c >>> 1) ^^^ 0xEDB88320#32 else c >>> 1

/-- Register after a message, from a given register. -/
def register (c : BitVec 32) (msg : List UInt8) : BitVec 32 := (msg.flatMap bits).foldl bitStep c

/-- The checksum. -/
def crc32 (msg : List UInt8) : BitVec 32 := ~~~ register (BitVec.allOnes 32) msg

/-- The standard check value: CRC-32 of "123456789" is 0xCBF43926. -/
example : crc32 [0x31, 0x32, 0x33, 0x34, 0x35, 0x36, 0x37, 0x38, 0x39] = 0xCBF43926#32 := by decide +kernel

end Verif.Crc32
