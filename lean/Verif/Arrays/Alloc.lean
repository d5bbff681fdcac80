/-! Arrays made like another one: `AllocateNumpyArray`, `AllocateLikeResize` and `AllocateLikeNumpyArray`.
What matters is how many bytes the items have, and where they are. -/
namespace Riptide.Alloc

/-- The types of arrays as far as they are told apart here: numbers and booleans, strings
(`NPY_STRING` and `NPY_UNICODE`), structures (`NPY_VOID`), and Python objects.  The last two but one are
flexible (`PyTypeNum_ISFLEXIBLE`), and so are strings. -/
inductive Ty where
  | number | text | void | object
deriving DecidableEq, Repr

/-- `PyTypeNum_ISFLEXIBLE`, as used in `src/RipTide.cpp:618` and 671. -/
def Ty.flexible : Ty → Bool
  | .text | .void => true
  | _ => false

/-- An array of one dimension: type, size of an item, number of rows, distance of two rows, and the
number of bytes of its memory.  More dimensions are left out. -/
structure Arr where
  ty : Ty
  width : Nat
  rows : Nat
  stride : Int
  bytes : Nat
deriving DecidableEq, Repr

/-- `PyArray_New` without data, as called in `src/RipTide.cpp:654` and 677-679: the memory has the size of the
items; strides which are passed are taken as they are, without a look at the memory. -/
def pyNew (ty : Ty) (width rows : Nat) (stride : Option Int) : Arr :=
  { ty := ty, width := width, rows := rows, stride := stride.getD width, bytes := rows * width }

/-- `AllocateNumpyArray`, `src/RipTide.cpp:597-711`.  `natural` is the size numpy knows for a type which is not
flexible; a flexible type without a size gets one byte (671-675).  Recycled arrays
(`src/RipTide.cpp:622-637`) have the same type and length, so they are not told apart. -/
def allocate (ty : Ty) (natural itemsize rows : Nat) (stride : Option Int) : Arr :=
  if itemsize = 0 ∧ ty.flexible = false then pyNew ty natural rows none
  else pyNew ty (if ty.flexible ∧ itemsize = 0 then 1 else itemsize) rows stride

/-- `AllocateLikeResize`, `src/RipTide.cpp:849-872`: the item size is passed on for strings only; nothing for
objects. -/
def likeResize (a : Arr) (rows : Nat) : Option Arr :=
  match a.ty with
  | .object => none
  | .text => some (allocate .text 0 a.width rows none)
  | ty => some (allocate ty a.width 0 rows none)

/-- `AllocateLikeNumpyArray`, `src/RipTide.cpp:789-843`, for the type `ty`, whose items have `natural` bytes if it is
not flexible.  A flexible type must be the one of the array, and then the strides of the array are passed on
(824-827).  `PyArray_NewLikeArray` (831) packs the items. -/
def like (a : Arr) (ty : Ty) (natural : Nat) : Option Arr :=
  if a.ty = .number ∧ a.stride = a.width then some (allocate ty natural 0 a.rows none)
  else if ty.flexible then
    if ty ≠ a.ty then none
    else some (allocate ty natural a.width a.rows (some a.stride))
  else some (pyNew ty natural a.rows none)

end Riptide.Alloc
