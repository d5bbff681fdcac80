import Verif.Mask.Props
import Verif.Unary.Strided
/-!
# The calls `BooleanSum`, `BooleanIndex` and `BooleanToFancy` on arrays of any shape, `src/Merge.cpp:248-759` and `1466-1712`

The kernels are those of `Mask/Model.lean`, which walk over `len` items with one stride. The calls find the length and the stride of an array of
any shape and strides, check types, and allocate the result. A call is given the bytes of the mask relative to its first item; the items of the
values are read through a function of the byte at which they begin. Left out: that the result for the types of dates has lost its unit, running
out of memory, and arguments which are no arrays (`PyArg_ParseTuple` refuses them).
-/
namespace Riptide.Mask.Call
open Riptide.Binary Riptide.Unary Riptide.Work Riptide.Mask

/-- Why a call fails, `src/Merge.cpp:250-298` and `739`. -/
inductive Err where
  /-- "argument must be a boolean array", lines 252, 739 and 1503. -/
  | notBool
  /-- "Dont know how to handle multidimensional value array", lines 270-273. -/
  | valueLayout
  /-- "Dont know how to handle multidimensional array used as boolean index", lines 280-283. -/
  | maskLayout
  /-- "Array lengths must match", line 298. -/
  | lengths
  /-- "Out of memory", line 699: no result could be allocated. -/
  | memory
  deriving DecidableEq, Repr

/-- What comes of a call (`src/Merge.cpp:728-759` and the others). `undefined`: memory is read or written which is not the call's. -/
inductive Result (α : Type) where
  | error (e : Err)
  | ok (x : α)
  | undefined
  deriving DecidableEq, Repr

/-- The types told apart by `AllocateLikeResize`, `src/RipTide.cpp:855-868`, and `AllocateNumpyArray`, `595-703`. -/
inductive Kind where
  /-- Python objects. -/
  | object
  /-- Strings of bytes or of characters. -/
  | text
  /-- Records and raw bytes (`NPY_VOID`): flexible, but not a string. -/
  | record
  /-- All other types. -/
  | plain
  deriving DecidableEq, Repr

/-- A mask as the calls see it: its type (`PyArray_TYPE(aIndex) == NPY_BOOL`, `src/Merge.cpp:250`), shape and strides. -/
structure Flags where
  isBool : Bool
  lay : Lay
  deriving DecidableEq, Repr

/-- `strideBoolean`: the second answer of `GetStridesAndContig`, `src/Merge.cpp:262` and `746`. -/
def step (a : Lay) : Int := (contig a).2

/-- `BooleanSum`, `src/Merge.cpp:728-759`. That the mask cannot be walked with one stride (`result1`) is not looked at. -/
def sumCall (f : Flags) (m : Mem) (par : Option (List Nat)) : Result Nat :=
  if f.isBool = false then .error .notBool
  else match booleanSum m f.lay.len (step f.lay) par with
    | some n => .ok n
    | none => .undefined

/-- The size of an item of the result of `AllocateLikeResize`, `src/RipTide.cpp:849-872`; `none` for objects. The size 0 which is passed on for
records, and by empty strings, becomes 1 (`src/RipTide.cpp:671-675`). -/
def outItem (k : Kind) (item : Nat) : Option Nat :=
  match k with
  | .object => none
  | .text => some (if item = 0 then 1 else item)
  | .record => some 1
  | .plain => some item

/-- The array cannot be walked with one stride: lines 266-275 for the values and 276-285 for the mask of `src/Merge.cpp`. -/
def refuses (a : Lay) : Bool := decide ((contig a).1 ≠ 0) && !a.cContig

/-- The copies of `src/Merge.cpp:352-681` into a result of `total` items of `out` bytes. A copy of `item` bytes which goes beyond the result is
undefined. -/
def store {α : Type} (vals : Int → α) (len item : Nat) (sv : Int) (out total : Nat) (copies : List Copy) : Result (List (Option α)) :=
  if copies.any (fun c => decide ((total * out : Nat) < c.1 + (item : Int))) then .undefined
  else match execCopies vals len item sv total copies with
    | some l => .ok l
    | none => .undefined

/-- `BooleanIndex`, `src/Merge.cpp:711-721` and `248-704`: the items of the result. -/
def indexCall {α : Type} (k : Kind) (a : Lay) (vals : Int → α) (f : Flags) (m : Mem) (par1 par2 : Option (List Nat)) : Result (List (Option α)) :=
  if f.isBool = false then .error .notBool
  else if refuses a then .error .valueLayout
  else if refuses f.lay then .error .maskLayout
  else if f.lay.len ≠ a.len then .error .lengths
  else match booleanIndex m a.len (step f.lay) a.item (step a) par1 par2 with
    | none => .undefined
    | some (total, copies) =>
      match outItem k a.item with
      | none => .error .memory
      | some out => store vals a.len a.item (step a) out total copies

/-- The keyword `both`, `src/Merge.cpp:1466-1482`: only the object `True` itself counts, not 1 and not numpy's True. -/
inductive Both where
  | absent
  | true
  | other
  deriving DecidableEq, Repr

/-- `GetKwargBoth`, `src/Merge.cpp:1466-1482`. -/
def Both.on : Both → Bool
  | .true => Bool.true
  | _ => false

/-- What `BooleanToFancy` returns: the size in bits of the indices, the indices, and the number of True with `both`. -/
structure Fancy where
  bits : Nat
  rows : List (Option Nat)
  cut : Option Nat
  deriving DecidableEq, Repr

/-- The type of the indices, `src/Merge.cpp:1561-1566`. -/
def fancyBits (len : Nat) : Nat := if len < 2000000000 then 32 else 64

/-- `BooleanToFancy`, `src/Merge.cpp:1492-1712`. The mask is counted with its stride, lines 1510-1517, but its bytes are read one after the other,
lines 1604-1678. -/
def fancyCall (f : Flags) (m : Mem) (both : Both) (par1 par2 : Option (List Nat)) : Result Fancy :=
  if f.isBool = false then .error .notBool
  else match booleanToFancy m f.lay.len (step f.lay) both.on par1 par2 with
    | none => .undefined
    | some (total, writes) =>
      match runWrites (if both.on then f.lay.len else total) writes with
      | none => .undefined
      | some rows => .ok ⟨fancyBits f.lay.len, rows, if both.on then some total else none⟩

end Riptide.Mask.Call
