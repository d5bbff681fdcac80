import Verif.Unary.Model
import Verif.Binary.Layout
/-! # Model of roots, logarithms and exponentials of integers, and of results stored over the input, `src/UnaryOps.cpp` -/
namespace Riptide.Unary
open Riptide.Binary

/-- The type as which the kernel reads integers of type `t` for `SQRT`, `CBRT`, `LOG`, `LOG10`, `EXP` and `EXP2`, `src/UnaryOps.cpp:2044-2208`.
`none`: no kernel, left to numpy. The functions themselves are those of the C library. -/
def mathType (t : IT) : Option IT :=
  if t = .i32 then some .i32
  else if t = .u32 then some .u32
  else if t = .i64 then some .i64
  else if t = .u64 then some .i64
  else none

/-- `MATH_OP((double)*pIn)`, `src/UnaryOps.cpp:1175`, for a function `fn` on the bits of doubles. -/
def mathI (fn : Nat → Nat) (t : IT) (x : Int) : Option Nat := (mathType t).map fun r => fn (FT.f64.ofInt (r.wrap x))

/-- The loop of `UnaryOpSlowDouble`, `src/UnaryOps.cpp:1164-1179`, over the rows of an array of integers. -/
def mathCall (fn : Nat → Nat) (t : IT) (xs : List Int) : Option (List Nat) := slowCall (mathI fn t) xs

/-- The rows stored over memory, `src/UnaryOps.cpp:2554-2641`: no overlap of a given output with the input is looked for. `steps` are the rows which
are read before they are written (one, or a register), in the order in which the threads come to them. -/
def unaryMem (f : List (BitVec 8) → List (BitVec 8)) (src out : Src) (m : Mem) (steps : List (List Nat)) : Mem :=
  memRun (fun x _ => f x) src src out m steps

end Riptide.Unary
