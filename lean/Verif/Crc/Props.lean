import Verif.Crc.Lemmas
/-! # CRC64: property theorems (C34, C46) -/
namespace Riptide.Crc

/-- C34.  The table-driven slicing-by-8 computation equals the bit-by-bit definition, for every
polynomial, initial value, input and length. -/
theorem crc64_eq_reference (poly crc : W64) (p : List Byte) :
    calculateCRC64 poly crc p = Spec.crc poly crc p := by
  rw [calculateCRC64_eq, spec_eq]

/-- C34.  Computing the checksum incrementally over pieces equals computing it over the whole. -/
theorem crc64_incremental (poly crc : W64) (p q : List Byte) :
    calculateCRC64 poly crc (p ++ q) = calculateCRC64 poly (calculateCRC64 poly crc p) q := by
  simp only [calculateCRC64_eq, List.foldl_append, BitVec.not_not]

/-- C34.  The checksum of an array is the reference CRC-64/XZ (ECMA polynomial, reflected). -/
theorem array_crc_eq_reference (p : List Byte) :
    calculateCRC p = Spec.crc ECMA 0#64 p := crc64_eq_reference _ _ _

/-- The check value of CRC-64/XZ for the bytes "123456789". -/
example : Spec.crc ECMA 0#64 [0x31#8, 0x32#8, 0x33#8, 0x34#8, 0x35#8, 0x36#8, 0x37#8, 0x38#8, 0x39#8]
    = 0x995dc9bbdf1939fa#64 := by decide +kernel

/-- C46.  Two arrays of the same size that differ only within 8 consecutive bytes have different
checksums. -/
theorem crc_detects_burst (p q x y : List Byte) (hl : x.length = y.length) (h8 : x.length ≤ 8)
    (hne : x ≠ y) : calculateCRC (p ++ x ++ q) ≠ calculateCRC (p ++ y ++ q) := by
  intro h
  apply hne
  have hp : ECMA.getLsbD 63 = true := by decide
  simp only [calculateCRC, calculateCRC64_eq, List.foldl_append, BitVec.not_inj] at h
  have h1 := foldl_inj ECMA hp q h
  rw [(fold_word ECMA x h8 _).1, (fold_word ECMA y (by omega) _).1, hl] at h1
  exact pack_inj x y hl h8 (xor_cancel (bitSteps_inj ECMA hp _ h1))

/-- A single flipped bit in the middle of an array changes its checksum. -/
example (p q : List Byte) : calculateCRC (p ++ [0#8] ++ q) ≠ calculateCRC (p ++ [4#8] ++ q) :=
  crc_detects_burst p q [0#8] [4#8] rfl (by decide) (by decide)

end Riptide.Crc
