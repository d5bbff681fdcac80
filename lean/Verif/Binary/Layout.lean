/-! # Model of the checks of shape and strides before an operation on two arrays, `src/BasicMath.cpp` -/
namespace Riptide.Binary

/-- The shape of a numpy array as `FillArray1` and `FillArray2` take it, `src/BasicMath.cpp:2280-2302`: its dimensions, the distance in bytes of neighbours in each, and the size of an item. -/
structure Lay where
  dims : List Nat
  strides : List Int
  item : Nat
  deriving DecidableEq, Repr

/-- `CALC_ARRAY_LENGTH`, `src/RipTide.h:106-124`: the product of the dimensions. -/
def prod : List Nat → Nat
  | [] => 1
  | d :: r => d * prod r

/-- Number of items, `len1` and `len2` of `src/BasicMath.cpp:2287` and `2299`. -/
def Lay.len (a : Lay) : Nat := prod a.dims

/-- Distances in C order (`PyArray_New` in `src/RipTide.cpp:597-705`): the last dimension is contiguous. -/
def cStrides (item : Nat) : List Nat → List Int
  | [] => []
  | _ :: r => ((prod r * item : Nat) : Int) :: cStrides item r

/-- Distances in Fortran order (`PyArray_New` in `src/RipTide.cpp:597-705`): the first dimension is contiguous. -/
def fStrides (item : Nat) : List Nat → List Int
  | [] => []
  | d :: r => (item : Int) :: fStrides (item * d) r

/-- The distances are the given ones (numpy's flags, used in `src/BasicMath.cpp:2288` and `2300`), where a dimension has more than one item. -/
def sameStrides : List Nat → List Int → List Int → Bool
  | [], [], [] => true
  | d :: ds, s :: ss, t :: ts => (decide (d = 1) || decide (s = t)) && sameStrides ds ss ts
  | _, _, _ => false

/-- numpy's flag `NPY_ARRAY_C_CONTIGUOUS` (`PyArray_UpdateFlags` of numpy). -/
def Lay.cContig (a : Lay) : Bool := decide (a.len = 0) || sameStrides a.dims a.strides (cStrides a.item a.dims)

/-- numpy's flag `NPY_ARRAY_F_CONTIGUOUS`, used in `src/BasicMath.cpp:2928` and `2942`. -/
def Lay.fContig (a : Lay) : Bool := decide (a.len = 0) || sameStrides a.dims a.strides (fStrides a.item a.dims)

/-- "Check strides", `src/BasicMath.cpp:2595-2599` and `2656-2660`: only the first dimension is looked at. -/
def strideOk (a : Lay) : Bool :=
  match a.dims, a.strides with
  | d :: _, s :: _ => decide (d ≤ 1) || decide (s = a.item)
  | _, _ => true

/-- The flag of an input; for a scalar it is set, `src/BasicMath.cpp:2985-2986`. -/
def flagF : Option Lay → Bool
  | none => true
  | some a => a.fContig

/-- The length of an input; for a scalar it is 0, line 2971. -/
def lenOf : Option Lay → Nat
  | none => 0
  | some a => a.len

/-- `AllocateNumpyArray`, `src/RipTide.cpp:597-705`, as far as the shape is concerned. -/
def allocate (dims : List Nat) (item : Nat) (fortran : Bool) : Lay :=
  ⟨dims, if fortran then fStrides item dims else cStrides item dims, item⟩

/-- A new output array for an input with the dimensions `dims`, `src/BasicMath.cpp:2921-2948`. -/
def allocLike (x1 x2 : Option Lay) (dims : List Nat) (item : Nat) : Lay :=
  if 1 < dims.length then allocate dims item (flagF x1 && flagF x2) else allocate dims item false

/-- `CheckOutputs`, `src/BasicMath.cpp:2909-2950`, without a given output. -/
def allocOut (x1 x2 : Option Lay) (item : Nat) : Lay :=
  if lenOf x1 = 0 ∧ lenOf x2 = 0 then allocate [0] item false
  else if lenOf x2 ≤ lenOf x1 then allocLike x1 x2 ((x1.map (·.dims)).getD []) item
  else allocLike x1 x2 ((x2.map (·.dims)).getD []) item

/-- A given output: long enough and with the first dimension contiguous, `src/BasicMath.cpp:2827-2841`. -/
def outOk (x1 x2 : Option Lay) (out : Lay) : Bool :=
  decide (lenOf x1 ≤ out.len) && decide (lenOf x2 ≤ out.len) && strideOk out

/-- The byte at which the item with the indices `idx` is, relative to `PyArray_BYTES` (`src/BasicMath.cpp:2286`). -/
def offs : List Nat → List Int → Int
  | i :: is, s :: ss => i * s + offs is ss
  | _, _ => 0

/-- "Check to punt on when shifted data (overlapped)", `src/BasicMath.cpp:2865-2882` for the first input and `2883-2900` for the
second: `p` and `n` are the address and the size in bytes of the input, `out` and `outn` those of the output. -/
def overlap (p n out outn : Nat) : Bool :=
  (decide (out < p) && decide (p < out + outn)) || (decide (out < p + n) && decide (p + n < out + outn))

/-- Memory: what the pointers of `WorkTwoStubCall`, `src/BasicMath.cpp:3090-3121`, point to. -/
abbrev Mem := Nat → BitVec 8

/-- Bytes from an address on: a load of the kernels, `src/BasicMath.cpp:560-1000`. -/
def readMem (m : Mem) (p n : Nat) : List (BitVec 8) := (List.range n).map fun (k : Nat) => m (p + k)

/-- Storing bytes: a store of the kernels, `src/BasicMath.cpp:560-1000`. -/
def writeMem (m : Mem) (p : Nat) (l : List (BitVec 8)) : Mem := fun a => if p ≤ a ∧ a < p + l.length then l.getD (a - p) 0 else m a

/-- An input or the output: address and size of an item, `src/BasicMath.cpp:2968-2990`. -/
structure Src where
  addr : Nat
  item : Nat

/-- One step of a loop of a kernel, `src/BasicMath.cpp:560-1000`: the rows `rows` of both inputs are read (one row, or a register), then the results are stored. -/
def memStep (f : List (BitVec 8) → List (BitVec 8) → List (BitVec 8)) (s1 s2 out : Src) (m : Mem) (rows : List Nat) : Mem :=
  rows.foldl (fun (m' : Mem) (i : Nat) =>
    writeMem m' (out.addr + i * out.item)
      (f (readMem m (s1.addr + i * s1.item) s1.item) (readMem m (s2.addr + i * s2.item) s2.item))) m

/-- The steps in the order in which they happen: blocks of `BasicMathThreadCallback`, `src/BasicMath.cpp:3025-3085`, and of the direct
call; loads and stores of different blocks are taken one step at a time. -/
def memRun (f : List (BitVec 8) → List (BitVec 8) → List (BitVec 8)) (s1 s2 out : Src) (m : Mem) (steps : List (List Nat)) : Mem :=
  steps.foldl (memStep f s1 s2 out) m

end Riptide.Binary
