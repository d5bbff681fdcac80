import Verif.Work.Elem
import Verif.Hash.Bytes
/-! `ReIndex(index, data)`: the rows of `data` in the order of `index`, without any check of the
index.  Arrays carry their bytes, since what goes wrong here is about the sizes of items. -/
namespace Riptide.ReIndex
open Riptide.Work Riptide.Hash

/-- The types of arrays as far as the code tells them apart: the four types of an index
(`src/Bins.cpp:82-108`), other numbers, strings, structures (`NPY_VOID`), Python objects, and the types
beyond `NPY_VOID` such as `datetime64` (`ObjectToDtype`, `src/RipTide.cpp:188-198`). -/
inductive Ty where
  | i32 | u32 | i64 | u64 | number | text | void | object | beyond
deriving DecidableEq, Repr

/-- An array: its type, the size of an item, the bytes of its items, its number of dimensions and
the address of its first byte.  Arrays which are not contiguous are copied before (`EnsureContiguousArray`,
`src/MultiKey.cpp:213-227`), so strides are left out. -/
structure Col where
  ty : Ty
  width : Nat
  items : List (List UInt8)
  dims : Nat := 1
  addr : Nat := 0
deriving DecidableEq, Repr

/-- An argument: `None`, some other object, or an array (`src/MultiKey.cpp:197-299`). -/
inductive Arg where
  | pyNone | other | array (c : Col)
deriving DecidableEq, Repr

/-- `ArrayLength` of an entry, `src/MultiKey.cpp:205` and 235. -/
def Arg.rows : Arg → Nat
  | .array c => c.items.length
  | _ => 0

/-- Whether an argument is accepted, `src/MultiKey.cpp:197-299` with `checkrows`: `None`, and arrays of
one dimension whose type is known. -/
def Arg.ok : Arg → Bool
  | .pyNone => true
  | .other => false
  | .array c => c.ty != .beyond && c.dims == 1

/-- `BuildArrayInfo` with `checkrows`, `src/MultiKey.cpp:145-324`: `none` when an exception is set. -/
def buildInfo (args : List Arg) : Option (List Arg) :=
  if args.all Arg.ok then
    match args with
    | [] => some []
    | a :: _ => if args.all (fun b => b.rows == a.rows) then some args else none
  else none

/-- The arguments of a call: arrays, or a list of arrays in the first place (`src/Sort.h:54-68`; what
follows the list is not looked at). -/
inductive Call where
  | args (l : List Arg)
  | list (l : List Arg) (rest : List Arg)
deriving Repr

/-- The arrays of a call, `src/Sort.h:56-68`. -/
def Call.arrays : Call → List Arg
  | .args l => l
  | .list l _ => l

/-- What the caller gets: an exception, `None` without an exception, or an array with its item size
and bytes (`none`: never written). -/
inductive Reply where
  | error
  | pyNone
  | array (width : Nat) (bytes : List (Option UInt8))
deriving DecidableEq, Repr

/-- The item size of the array made by `AllocateLikeResize`, `src/RipTide.cpp:849-872`, with
`AllocateNumpyArray`, `src/RipTide.cpp:597-711`: the size is passed on for strings only, so structures
come without a size, and flexible types without a size get items of one byte (671-675).  `none` for
objects. -/
def likeWidth (ty : Ty) (width : Nat) : Option Nat :=
  match ty with
  | .object => none
  | .text => some (if width = 0 then 1 else width)
  | .void => some 1
  | _ => some width

/-- Whether the first byte of the new array is cleared (`bRuntFile`, `src/RipTide.cpp:666-696`). -/
def runt (ty : Ty) (width : Nat) : Bool :=
  match ty with
  | .void => true
  | .text => width == 0
  | _ => false

/-- The bits of the index which are read, `ReIndexer` in `src/Bins.cpp:82-108`; unsigned types are read as
signed ones of the same size.  `none`: an exception is set. -/
def indexBits : Ty → Option Nat
  | .i32 | .u32 => some 32
  | .i64 | .u64 => some 64
  | _ => none

/-- The value of an entry of the index, `T index = pIndex[i]` in `src/Bins.cpp:31` and 48. -/
def indexVal (bits : Nat) (bytes : List UInt8) : Int :=
  (BitVec.ofNat bits (leWord bytes)).toInt

/-- The bytes written for a row, `src/Bins.cpp:29-33` and 46-54: an index outside of the data reads
outside of it, and items of 16 bytes are moved as `__m128`, which faults at an odd address
(`src/Bins.cpp:74-75`). -/
def rowOf (bits : Nat) (index data : Col) (i : Nat) : Option (List UInt8) :=
  match index.items[i]? with
  | none => none
  | some b =>
    let v := indexVal bits b
    if v < 0 then none
    else if data.width = 16 ∧ data.addr % 16 ≠ 0 then none
    else data.items[v.toNat]?

/-- The byte writes of a row, `pOut[i * itemSize + j]` in `src/Bins.cpp:52` (and `pOut[i]` for items of 1,
2, 4, 8 and 16 bytes). -/
def rowWrites (w : Nat) (r : Nat × List UInt8) : List (Nat × UInt8) :=
  r.2.zipIdx.map fun p => (r.1 * w + p.2, p.1)

/-- The loop over all rows, at once or in blocks by several threads, `src/Bins.cpp:126-155` and 186-208.
`none`: undefined behaviour. -/
def gather (bits : Nat) (index data : Col) (outWidth : Nat) (par : Option (List Nat)) : Option Reply :=
  match elemWork (rowOf bits index data) index.items.length par with
  | none => none
  | some rs =>
    let clear := if runt data.ty data.width ∧ 0 < index.items.length then [(0, (0 : UInt8))] else []
    match runWrites (index.items.length * outWidth) (clear ++ rs.flatMap (rowWrites data.width)) with
    | none => none
    | some out => some (.array outWidth out)

/-- `ReIndex`, `src/Bins.cpp:161-222`.  Without arrays the length is read behind the allocation
(`src/Sort.h:76`); for `None` a null pointer is followed (`src/RipTide.cpp:851`, `src/Bins.cpp:176`). -/
def reIndex (c : Call) (par : Option (List Nat)) : Option Reply :=
  match buildInfo c.arrays with
  | none => some .error
  | some [] => none
  | some [_] => some .error
  | some (a :: b :: _) =>
    match b with
    | .array data =>
      match likeWidth data.ty data.width with
      | none => some .pyNone
      | some ow =>
        match a with
        | .array index =>
          match indexBits index.ty with
          | none => some .error
          | some bits => gather bits index data ow par
        | _ => none
    | _ => none

end Riptide.ReIndex
