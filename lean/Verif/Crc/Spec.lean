/-! Reference definition of a reflected CRC-64: bit by bit, no tables. -/
namespace Riptide.Crc.Spec

/-- Shift the register by one bit, subtracting the polynomial when a 1 falls out. -/
def shiftBit (poly r : BitVec 64) : BitVec 64 :=
  if r.getLsbD 0 then (r >>> 1) ^^^ poly else r >>> 1

/-- Feed one input bit (least significant bit of each byte first). -/
def feedBit (poly r : BitVec 64) (bit : Bool) : BitVec 64 :=
  shiftBit poly (if bit then r ^^^ 1#64 else r)

/-- The bits of a byte string, least significant bit of each byte first. -/
def bits (p : List (BitVec 8)) : List Bool :=
  p.flatMap fun b => (List.range 8).map fun i => b.getLsbD i

/-- CRC of `p` continuing from the checksum `init`; the register is complemented at both ends. -/
def crc (poly init : BitVec 64) (p : List (BitVec 8)) : BitVec 64 :=
  ~~~((bits p).foldl (feedBit poly) (~~~init))

end Riptide.Crc.Spec
