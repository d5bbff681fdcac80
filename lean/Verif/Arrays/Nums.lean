import Verif.Common.Num
import Verif.Binary.Layout
/-!
# Arrays of numbers as the calls see them: a type, a shape, and bytes

Many calls take `PyArray_BYTES` of an array (its first item) and its number of items (`ArrayLength`, `src/RipTide.h:106-124`), and read the numbers
one after the other. Bytes are given relative to the first item; `none` is memory which does not belong to the array. The machine is little endian.
-/
namespace Riptide.Nums
open Riptide.Binary

/-- A numpy array: its type (numpy's number, `PyArray_TYPE` as in `src/TimeWindow.cpp:169`), its shape and strides, and whether its bytes are in the
other order than those of the machine, which no call looks at. -/
structure Arr where
  type : Nat
  lay : Lay
  swapped : Bool
  deriving DecidableEq, Repr

/-- The memory around the first item: `PyArray_BYTES`, as in `src/TimeWindow.cpp:232-234`. -/
abbrev Mem := Int → Option (BitVec 8)

/-- A load of `n` bytes as a number, as `pIn[i]` of `src/TimeWindow.cpp:37`. -/
def load (m : Mem) (o : Int) : Nat → Option Nat
  | 0 => some 0
  | n + 1 => (m o).bind fun b => (load m (o + 1) n).map fun r => b.toNat + 256 * r

/-- A load of an integer of the type `t`, as `pTime[i]` of `src/TimeWindow.cpp:42`. -/
def loadInt (t : IT) (m : Mem) (o : Int) : Option Int := (load m o (t.bits / 8)).map fun (v : Nat) => t.wrap v

end Riptide.Nums
