/-! # Model of `BitCount`, `src/BitCount.cpp` -/
namespace Riptide.Bits

/-- `nibble_bitcount`, `src/BitCount.cpp:9-24`. -/
def nibbleTable : List Nat := [0, 1, 1, 2, 1, 2, 2, 3, 1, 2, 2, 3, 2, 3, 3, 4]

/-- `nibble_bitcount[k]`; out of bounds is undefined behaviour. -/
def nibble (k : Nat) : Option Nat := nibbleTable[k]?

/-- The `popcnt` instruction (trusted; used in `src/BitCount.cpp:76`, 83): shift out the bits and add them. -/
def popcnt (n : Nat) : Nat :=
  if _h : n = 0 then 0 else n % 2 + popcnt (n / 2)
termination_by n
decreasing_by omega

/-- How `BitCount` treats an element, `src/BitCount.cpp:36-90`. -/
inductive Kind
  | bool
  /-- Item size in bytes, for any other type. -/
  | bytes (size : Nat)

/-- Counting one element (bit pattern `n`), `src/BitCount.cpp:36-85`.
`none` for an unsupported item size stands for the `ValueError`. -/
def count : Kind → Nat → Option Nat
  | .bool, n => some (if n = 0 then 0 else 1)
  | .bytes 1, n => do
      let a ← nibble (n >>> 4); let b ← nibble (n &&& 0xf)
      some (a + b)
  | .bytes 2, n => do
      let a ← nibble (n >>> 12); let b ← nibble ((n >>> 8) &&& 0xf)
      let c ← nibble ((n >>> 4) &&& 0xf); let d ← nibble (n &&& 0xf)
      some (a + b + c + d)
  | .bytes 4, n => some (popcnt n)
  | .bytes 8, n => some (popcnt n)
  | _, _ => none

/-- Item size of a kind. -/
def Kind.size : Kind → Nat
  | .bool => 1
  | .bytes s => s

/-- `BitCount`, `src/BitCount.cpp:7-94`: the elements are read one after the other from the start of
the buffer, whatever the strides of the array are.  `mem a` is the element stored at byte `a`. -/
def bitCount (k : Kind) (mem : Nat → Nat) (len : Nat) : Option (List Nat) :=
  (List.range len).mapM fun i => count k (mem (i * k.size))

end Riptide.Bits
