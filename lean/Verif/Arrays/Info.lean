import Verif.Arrays.Nums
import Verif.Mask.CallSpec
/-!
# `BuildArrayInfo`: how a call takes a list of arrays, `src/MultiKey.cpp:89-324`

Left out: numpy's order of dimensions with the same distance in a copy, and the counts of references.
-/
namespace Riptide.Nums.Info
open Riptide.Nums Riptide.Binary
open Riptide.Mask.Call.Spec (inC)

/-- An item of the list, `src/MultiKey.cpp:180-297`: `None`, an array, or something else. -/
inductive Arg where
  | pyNone
  | other
  | array (a : Arr) (m : Mem)

/-- What is passed, `src/MultiKey.cpp:151-172`: one array, a tuple or a list, or something else. -/
inductive Obj where
  | one (a : Arr) (m : Mem)
  | items (l : List Arg)
  | other

/-- What is kept of an item, `struct ArrayInfo`, `src/MultiKey.h:4-34`: without an array the pointers are null. `copied` tells that `pObject` is a copy. -/
structure Entry where
  there : Bool
  type : Nat
  item : Nat
  ndim : Nat
  len : Nat
  data : Mem
  copied : Bool

/-- What comes of a call: an exception; `NULL` without an exception; the entries with the sum of the sizes of items. -/
inductive Result where
  | refused
  | silent
  | undefined
  | ok (l : List Entry) (total : Nat)

/-- Puts a dimension (its number and its distance) in front of the first one with a smaller distance: numpy orders the dimensions of a copy this way
(`PyArray_NewLikeArray` with `NPY_KEEPORDER`, as `PyArray_FromAny` of `src/RipTide.cpp:250` calls it). -/
def insertDim (x : Nat × Int) : List (Nat × Int) → List (Nat × Int)
  | [] => [x]
  | y :: l => if y.2.natAbs < x.2.natAbs then x :: y :: l else y :: insertDim x l

/-- The dimensions from the one with the largest distance to the one with the smallest, `src/RipTide.cpp:250`. -/
def sortedDims (ss : List Int) : List Nat := ((ss.zipIdx.map fun p => (p.2, p.1)).foldl (fun l x => insertDim x l) []).map (·.1)

/-- The distance of a dimension in the copy, `src/RipTide.cpp:250`: the product of what comes behind it in the order of distances. -/
def keepStride (item : Nat) (dims : List Nat) (order : List Nat) (k : Nat) : Int :=
  ((prod ((order.drop (order.idxOf k + 1)).map fun j => dims.getD j 1) * item : Nat) : Int)

/-- The shape of a copy which keeps the order of the dimensions, `src/RipTide.cpp:250`. -/
def keepLay (l : Lay) : Lay :=
  ⟨l.dims, (List.range l.dims.length).map (keepStride l.item l.dims (sortedDims l.strides)), l.item⟩

/-- The bytes of a copy, `src/RipTide.cpp:250`: for every item the place in the copy and the place in the array. -/
def copyMem (item : Nat) (places : List (Int × Int)) (m : Mem) : Mem := fun o =>
  match places.find? fun p => decide (p.1 ≤ o ∧ o < p.1 + item) with
  | none => none
  | some p => m (p.2 + (o - p.1))

/-- The copy of an array, `src/RipTide.cpp:250`. -/
def copyOf (a : Arr) (m : Mem) : Arr × Mem :=
  ({ a with lay := keepLay a.lay },
   copyMem a.lay.item ((inC a.lay.dims (keepLay a.lay).strides).zip (inC a.lay.dims a.lay.strides)) m)

/-- `EnsureContiguousArray`, `src/RipTide.cpp:242-258`: the array, or a copy if it is contiguous in neither order. `none`: no memory. -/
def ensure (room : Bool) (a : Arr) (m : Mem) : Option (Arr × Mem × Bool) :=
  if a.lay.cContig || a.lay.fContig then some (a, m, false)
  else if room then some ((copyOf a m).1, (copyOf a m).2, true) else none

/-- `src/MultiKey.cpp:213-228`: the array which is looked at. -/
def taken (convert room : Bool) (a : Arr) (m : Mem) : Option (Arr × Mem × Bool) := if convert then ensure room a m else some (a, m, false)

/-- The entry of an array, `src/MultiKey.cpp:232-292`: the first distance is read before the number of dimensions is looked at, and numpy gives no
distances for an array without dimensions. -/
def entryOf (checkrows : Bool) (b : Arr) (m : Mem) (copied : Bool) : Except Bool Entry :=
  if 20 < b.type then .error true
  else match b.lay.strides with
    | [] => .error false
    | s :: _ =>
      if checkrows = true ∧ b.lay.dims.length ≠ 1 then .error true
      else if s ≠ b.lay.item ∧ 0 < b.lay.len ∧ b.lay.dims.length = 1 then .error true
      else .ok ⟨true, b.type, b.lay.item, b.lay.dims.length, b.lay.len, m, copied⟩

/-- One round of the loop, `src/MultiKey.cpp:178-297`. `.error true` is an exception, `.error false` undefined behaviour. -/
def entry (checkrows convert : Bool) (room : Bool) : Arg → Except Bool Entry
  | .pyNone => .ok ⟨false, 0, 0, 0, 0, fun _ => none, false⟩
  | .other => .error true
  | .array a m =>
    match taken convert room a m with
    | none => .error true
    | some (b, mb, c) => entryOf checkrows b mb c

/-- The loop, `src/MultiKey.cpp:178-297`; `room i` tells whether there is memory for a copy of item `i`. -/
def entries (checkrows convert : Bool) (room : Nat → Bool) : Nat → List Arg → Except Bool (List Entry)
  | _, [] => .ok []
  | i, x :: l =>
    match entry checkrows convert (room i) x with
    | .error e => .error e
    | .ok y =>
      match entries checkrows convert room (i + 1) l with
      | .error e => .error e
      | .ok r => .ok (y :: r)

/-- The items of what is passed, `src/MultiKey.cpp:151-172`; `none` is an exception. -/
def Obj.list : Obj → Option (List Arg)
  | .one a m => some [.array a m]
  | .items l => some l
  | .other => none

/-- All arrays have as many rows as the first one, `src/MultiKey.cpp:301-313`. -/
def sameRows (checkrows : Bool) (l : List Entry) : Bool :=
  match l with
  | [] => true
  | x :: _ => !checkrows || l.all fun y => decide (y.len = x.len)

/-- Without memory for the entries (`AllocArrayInfo`, `src/MultiKey.cpp:116-139`, whose answer is not looked at) the first `None` or array is written
through a null pointer, `src/MultiKey.cpp:200` and 211. -/
def noTable : List Arg → Result
  | [] => .silent
  | .other :: _ => .refused
  | _ :: _ => .undefined

/-- `BuildArrayInfo`, `src/MultiKey.cpp:145-324`. `table` tells whether there is memory for the entries. -/
def build (table : Bool) (room : Nat → Bool) (checkrows convert : Bool) (o : Obj) : Result :=
  match o.list with
  | none => .refused
  | some l =>
    if table = false then noTable l
    else match entries checkrows convert room 0 l with
      | .error true => .refused
      | .error false => .undefined
      | .ok es => if sameRows checkrows es then .ok es (es.map (·.item)).sum else .refused

end Riptide.Nums.Info
