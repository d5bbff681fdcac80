import Verif.Work.Elem
import Verif.Common.Num
/-! # Model of type conversion, `src/missing_values.h`, `src/Convert.cpp` -/
namespace Riptide.Convert
open Riptide.Work

/-- `cast_nan_aware<Target, Source>` for integer types, `src/missing_values.h:283-304`.
`bool` has no invalid value and is the type with values 0 and 1. -/
def castNanAware (src dst : IT) (x : Int) : Int :=
  if x ≠ src.inv then dst.wrap x else dst.inv

/-- `OneStubConvertSafe`, one element, `src/Convert.cpp:284-324`, integer to integer.  The sentinels
come from `GetDefaultForType`, `src/RipTide.cpp:2098-2176`. -/
def safeInt (src dst : IT) (x : Int) : Int :=
  if x ≠ src.inv then dst.wrap x else dst.inv

/-- `OneStubConvertSafe`, one element, `src/Convert.cpp:284-324`, boolean to integer: the input
sentinel is that of `int8_t` (`GetInvalid`, lines 1029-1038). -/
def safeBoolInt (dst : IT) (x : Int) : Int :=
  if x ≠ IT.i8.inv then dst.wrap x else dst.inv

/-- `OneStubConvertSafe`, one element, `src/Convert.cpp:284-324`, integer to float. -/
def safeIntFloat (src : IT) (f : FT) (x : Int) : Nat :=
  if x ≠ src.inv then f.ofInt x else f.qnan

/-- `OneStubConvertSafeFloat`, one element, `src/Convert.cpp:390-433`, float to integer.  The input
sentinel is NaN, so `!=` is always true; the cast of a value outside the target range is undefined
behaviour. -/
def safeFloatInt (f : FT) (dst : IT) (b : Nat) : Option Int :=
  if f.isFinite b then f.toInt dst b else some dst.inv

/-- `OneStubConvertSafeBool`, one element, `src/Convert.cpp:435-465`, integer to boolean. -/
def safeBool (x : Int) : Bool := decide (x ≠ 0)

/-- `OneStubConvertSafeBool`, one element, `src/Convert.cpp:435-465`, float to boolean: `x != 0`. -/
def safeFloatBool (f : FT) (b : Nat) : Bool := !f.eq b 0

/-- `ConvertSafeInternal`, `src/Convert.cpp:1050-1200` with `ConvertThreadCallback`, lines 996-1024,
for arrays that are one strided run: element `i` is read at byte `i * stride` (block `b` starts at
byte `BlockSize * b * stride`) and written to slot `i` of the fresh contiguous output.
Two-dimensional inputs with different outer stride (lines 1098-1147) are not modelled. -/
def convertSafe {α β : Type} (conv : α → Option β) (mem : Int → α) (stride : Int) (len : Nat)
    (par : Option (List Nat)) : Option (List (Option β)) :=
  (elemWork (fun (i : Nat) => conv (mem ((i : Int) * stride))) len par).bind (runWrites len)

end Riptide.Convert
