import Verif.Binary.Layout
/-! # Model of which elements `Reduce` reads, `src/Reduce.cpp` -/
namespace Riptide.Reduce
open Riptide.Binary

/-- What becomes of a call: it is left to numpy, or the bytes at these distances from the data pointer are read, one item each. -/
inductive Reads
  | punt
  | at (l : List Int)
  deriving DecidableEq, Repr

/-- The elements `pIn[i]` of the kernels, `src/Reduce.cpp:2756-2765`: items one after the other from `PyArray_DATA` on. -/
def flat (item len : Nat) : List Int := (List.range len).map fun (k : Nat) => ((k * item : Nat) : Int)

/-- `Reduce`, `src/Reduce.cpp:3370-3427`, and the checks of `ReduceInternal`, lines 3146-3160, for a supported type and function.
`none`: `PyArray_DIM(inArr1, 0)` is read although there is no dimension. -/
def reduceReads (a : Lay) : Option Reads :=
  match a.dims, a.strides with
  | d :: _, s :: _ =>
    if d ≤ 1 ∨ s = (a.item : Int) then
      if a.len = 0 then some .punt else some (.at (flat a.item a.len))
    else some .punt
  | _, _ => none

end Riptide.Reduce
