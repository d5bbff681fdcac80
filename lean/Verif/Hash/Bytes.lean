/-! # Byte comparison and bit fields used by the hash tables -/
namespace Riptide.Hash

/-- The value of a little-endian word with the given bytes. -/
def leWord : List UInt8 → Nat
  | [] => 0
  | b :: bs => b.toNat + 256 * leWord bs

/-- `while (length > 0)` of `MEMCMP_NEW`, `src/HashLinear.cpp:109-119`: True if some byte differs. -/
def diffBytes : List UInt8 → List UInt8 → Bool
  | a :: as, b :: bs => if a != b then true else diffBytes as bs
  | _, _ => false

/-- `if (length >= 4)`, 93-108. -/
def diff4 (a b : List UInt8) : Bool :=
  if 4 ≤ a.length then
    if leWord (a.take 4) != leWord (b.take 4) then true else diffBytes (a.drop 4) (b.drop 4)
  else diffBytes a b

/-- `MEMCMP_NEW`, `src/HashLinear.cpp:73-120`, for two byte strings of equal length (callers pass rows of
one array): 8-byte words, then one 4-byte word, then single bytes. -/
def memcmpNew (a b : List UInt8) : Bool :=
  if _h : 8 ≤ a.length then
    if leWord (a.take 8) != leWord (b.take 8) then true else memcmpNew (a.drop 8) (b.drop 8)
  else diff4 a b
termination_by a.length
decreasing_by simp; omega

/-- `IsBitSet`, `src/HashLinear.h:380-391`; `none`: outside the words. -/
def isBitSet (words : List Nat) (pos : Nat) : Option Bool := words[pos / 64]?.map fun w => w.testBit (pos % 64)

/-- `SetBit`, `src/HashLinear.h:395-399`. -/
def setBit (words : List Nat) (pos : Nat) : List Nat := words.modify (pos / 64) fun w => w ||| 2 ^ (pos % 64)

/-- `ClearBit`, `src/HashLinear.h:403-407`: and with the 64-bit complement. -/
def clearBit (words : List Nat) (pos : Nat) : List Nat :=
  words.modify (pos / 64) fun w => w &&& ((2 ^ 64 - 1) ^^^ 2 ^ (pos % 64))

end Riptide.Hash
