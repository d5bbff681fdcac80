import Verif.Binary.Layout
/-! # Model of the walk over arrays of any shape by the operations on one array, `src/RipTide.cpp:2290-2374` and `src/UnaryOps.cpp:2478-2705` -/
namespace Riptide.Unary
open Riptide.Binary

/-- `PyArray_DIM`. Outside of the array numpy would read past its shape; no caller does (`src/RipTide.cpp:2319-2369`). -/
def dim (a : Lay) (k : Nat) : Nat := a.dims.getD k 0
/-- `PyArray_STRIDE`, `src/RipTide.cpp:2319`. -/
def str (a : Lay) (k : Nat) : Int := a.strides.getD k 0

/-- `stride`, `src/RipTide.cpp:2312-2320`: of the first dimension, or the size of an item if it has at most one. -/
def headStride (a : Lay) : Int := if 0 < a.dims.length ∧ 1 < dim a 0 then str a 0 else a.item
/-- `lastStride`, `src/RipTide.cpp:2325-2329`. -/
def lastStride (a : Lay) : Int := if 1 < dim a (a.dims.length - 1) then str a (a.dims.length - 1) else a.item

/-- The loop for row-major arrays, `src/RipTide.cpp:2338-2348`: `currentdim` at its end. -/
def backChain (a : Lay) : Nat → Int → Nat
  | 0, _ => 0
  | k + 1, cur => if str a k ≠ cur * dim a (k + 1) then k + 1 else backChain a k (cur * dim a (k + 1))

/-- The loop for column-major arrays, `src/RipTide.cpp:2355-2368`: `(ndims - 1) - currentdim` at its end. -/
def fwdChain (a : Lay) : Nat → Int → Nat
  | 0, _ => 0
  | r + 1, cur =>
    let k := a.dims.length - 1 - (r + 1)
    if str a (k + 1) ≠ cur * dim a k then r + 1 else fwdChain a r (cur * dim a k)

/-- `GetStridesAndContig`, `src/RipTide.cpp:2310-2374`: the direction and the stride. -/
def contig (a : Lay) : Int × Int :=
  if a.dims.length ≤ 1 then (0, headStride a)
  else if lastStride a = headStride a then (0, headStride a)
  else if (lastStride a).natAbs < (headStride a).natAbs then (backChain a (a.dims.length - 1) (lastStride a), lastStride a)
  else (-(fwdChain a (a.dims.length - 1) (headStride a) : Int), headStride a)

/-- One call of the kernel over everything, `src/UnaryOps.cpp:2613-2641`: the bytes read and written, relative to the beginning of the arrays, item
by item. The threads split this call by rows. -/
def straight (len : Nat) (si so : Int) : List (Int × Int) := (List.range len).map fun (k : Nat) => ((k : Int) * si, (k : Int) * so)

/-- One call of the kernel for each of `outer` rows, `src/UnaryOps.cpp:2650-2668` and `2669-2690`. -/
def nested (outer inner : Nat) (os si so : Int) : List (Int × Int) :=
  (List.range outer).flatMap fun (j : Nat) =>
    (List.range inner).map fun (i : Nat) => ((j : Int) * os + (i : Int) * si, ((j : Int) * inner + i) * so)

/-- The walk with an output array, `src/UnaryOps.cpp:2600-2697`. `none`: left to numpy. -/
def plan (a out : Lay) : Option (List (Int × Int)) :=
  let (di, si) := contig a
  let (dout, so) := contig out
  if di = 0 ∧ dout = 0 then some (straight a.len si so)
  else if di = 1 ∧ dout = 0 then some (nested (dim a 0) (prod (a.dims.drop 1)) (str a 0) si so)
  else if di = -1 ∧ dout = 0 then some (nested (dim a (a.dims.length - 1)) (prod (a.dims.take 1)) (str a (a.dims.length - 1)) si so)
  else none

/-- Insertion by falling distance, behind equal ones: how `PyArray_NewLikeArray` (`src/RipTide.cpp:834`) sorts the dimensions. -/
def insertDim (a : Lay) (k : Nat) : List Nat → List Nat
  | [] => [k]
  | y :: ys => if (str a y).natAbs < (str a k).natAbs then k :: y :: ys else y :: insertDim a k ys

/-- The dimensions by falling distance, for `NPY_KEEPORDER` in `src/RipTide.cpp:834`. -/
def sortedDims (a : Lay) : List Nat := (List.range a.dims.length).foldl (fun l k => insertDim a k l) []

/-- The strides of the new array for `NPY_KEEPORDER` in `src/RipTide.cpp:834`: contiguous in the order of the sorted dimensions. -/
def keepStrides (a : Lay) (item : Nat) : List Int :=
  (List.range a.dims.length).map fun (k : Nat) => ((prod ((((sortedDims a).dropWhile (· ≠ k)).tail).map (dim a)) * item : Nat) : Int)

/-- The new output, `AllocateNumpyArray` or `AllocateLikeNumpyArray` in `src/UnaryOps.cpp:2503-2504` and `src/RipTide.cpp:790-845`, with items of
`item` bytes. -/
def newOut (a : Lay) (item : Nat) : Lay :=
  if a.dims.length ≤ 1 then ⟨[a.len], [(item : Int)], item⟩
  else ⟨a.dims, if a.cContig then cStrides item a.dims else if a.fContig then fStrides item a.dims else keepStrides a item, item⟩

/-- The walk without a given output, `src/UnaryOps.cpp:2491-2541` and `2553-2697`. -/
def planNew (a : Lay) (item : Nat) : Option (List (Int × Int)) :=
  if (contig a).1 = 0 then some (straight a.len (contig a).2 item) else plan a (newOut a item)

/-- The walk with a given output, `src/UnaryOps.cpp:2563-2597`: only the number of items is compared. -/
def planGiven (a out : Lay) : Option (List (Int × Int)) := if a.len = out.len then plan a out else none

end Riptide.Unary
