/-! # Model of the hash table sizing of `src/HashLinear.cpp` -/
namespace Riptide.Hash

/-- `PRIME_NUMBERS`, `src/HashLinear.cpp:68-72` (without the terminating 0). -/
def primes : List Nat :=
  [53, 97, 193, 389, 769, 1543, 3079, 6151, 12289, 24593, 49157, 98317, 196613, 393241, 786433,
   1572869, 3145739, 6291469, 12582917, 25165843, 50331653, 100663319, 201326611, 402653189,
   805306457, 1610612741, 3002954501, 4294967291, 8589934583, 17179869143, 34359738337, 68719476731]

/-- `HASH_MODE`, `src/HashLinear.h`. -/
inductive Mode
  | prime
  | mask
  deriving DecidableEq

/-- The first prime of the table above `n`; 0 when there is none, `src/HashLinear.cpp:381-394`. -/
def primeAbove (n : Nat) : List Nat → Nat
  | [] => 0
  | p :: ps => if p > n then p else primeAbove n ps

/-- `while ((1LL << i) < n && i < 64) i++`, `src/HashLinear.cpp:396-400`; the shift by 63 or more
(undefined, or negative) is only reached for `n > 2 ^ 62` and reported as `none`. -/
def powAbove (n : Nat) : Nat → Nat → Option Nat
  | 0, _ => none
  | fuel + 1, i => if i < 63 then if 2 ^ i < n then powAbove n fuel (i + 1) else some (2 ^ i) else none

/-- `GetHashSize`, `src/HashLinear.cpp:378-411`. -/
def hashSize (mode : Mode) (n : Nat) : Option Nat :=
  match mode with
  | .prime => some (primeAbove n primes)
  | .mask => powAbove n 64 0

/-- The table size chosen by `AllocMemory`, `src/HashLinear.cpp:467-510`. -/
def allocSize (mode : Mode) (n : Nat) (isFloat : Bool) : Option Nat :=
  match mode with
  | .mask => (hashSize .mask (if isFloat then n * 8 else n * 2)).map fun s => if s < 65536 then 65536 else s
  | .prime => hashSize .prime n

/-- The hint passed on: 0 means the array length, `src/HashLinear.cpp:1344-1347`. -/
def hintOr (hint arraySize : Nat) : Nat := if hint = 0 then arraySize else hint

end Riptide.Hash
