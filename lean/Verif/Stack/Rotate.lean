import Verif.Stack.Column
/-! # The memory of stacked columns in Fortran order, `src/SDSFile.cpp` -/
namespace Riptide.Stack
open Riptide.Sds

/-- Whether a column is filled column by column, `src/SDSFile.cpp:5234,5773,5816,7652`. -/
def inColumns (k : Block) : Bool := decide (2 ≤ k.dims.length) && k.f

/-- `RotationalFixup`, `src/SDSFile.cpp:5310-5335`, for the first `i` columns: the column of a file is copied to the place of its rows in the column of
the memory.  `total` are the rows of all files, `off` is the first row of this file and `rows` the number of its rows. -/
def rotate (size total off rows : Nat) (src : List Nat) : Nat → List Nat → Option (List Nat)
  | 0, m => some m
  | i + 1, m =>
    match rotate size total off rows src i m with
    | none => none
    | some m =>
      if i * (rows * size) + rows * size ≤ src.length then
        put m (off * size + i * total * size) ((src.drop (i * (rows * size))).take (rows * size))
      else none

/-- `GetGapFillSpecial`, `src/SDSFile.cpp:5187-5216`: the size of the items; `none` is the null pointer, also for both kinds of `long`. -/
def special (t : Nat) : Option Nat :=
  if [0, 1, 2, 3, 4, 5, 6, 9, 10, 11, 12, 13].contains t then some (itemTable.getD t 0) else none

/-- `GapFillSpecial`, `src/SDSFile.cpp:5027-5059`, as the list of the items which are set: row by row, and for each row all columns. -/
def gapCells (total off rows cols : Nat) : List Nat :=
  (List.range rows).flatMap fun i => (List.range cols).map fun c => off + i + c * total

/-- The same items are written to each of these places. -/
def setCells (size : Nat) (v : List Nat) : List Nat → List Nat → Option (List Nat)
  | [], m => some m
  | a :: l, m =>
    match put m (a * size) v with
    | none => none
    | some m => setCells size v l m

/-- `GapFillAny` for arrays in Fortran order, `src/SDSFile.cpp:5234-5256`: a call of the null pointer is undefined behaviour.  `GET_INVALID` gives the
same as `SDSGetDefaultType`; the 6 bytes of padding of a `long double` are taken as 0. -/
def gapColumns (k : Block) (total : Nat) (x : Packet) (m : List Nat) : Option (List Nat) :=
  match special k.dtype with
  | none => none
  | some s => setCells s (le s (defaultBits k.dtype)) (gapCells total x.off x.gap (cols k)) m

/-- `DecompressMultiArray`, `src/SDSFile.cpp:5873-6055`, with `CheckRotationalFixup` and `FinishRotationalFixup`, 5763-5860, for arrays in Fortran order
and without a filter: the bytes of a file are in a buffer of their own, and are neither converted nor stretched.  `total` is `Dimensions[0]` of the
master block, 7583. -/
def fillColumns (k : Block) (total : Nat) (x : Packet) (m : List Nat) : Option (List Nat) :=
  match x.part.block with
  | none => gapColumns k total x m
  | some b =>
    if !(compat false k b).2.ok then gapColumns k total x m
    else if x.part.own = 0 then some m
    else if rowSize b = 0 then some m
    else rotate k.item total x.off x.part.own x.part.data (k.dims.getD 1 0) m

/-- The workers, in some order, `src/SDSFile.cpp:7683-7687`.  The packets are taken as done one after the other. -/
def fillAllColumns (k : Block) (total : Nat) : List Packet → List Nat → Option (List Nat)
  | [], m => some m
  | x :: l, m =>
    match fillColumns k total x m with
    | none => none
    | some m => fillAllColumns k total l m

/-- Each worker takes the way for the order of the column, `src/SDSFile.cpp:5234,5773`. -/
def fillAny (k : Block) (total : Nat) (l : List Packet) (m : List Nat) : Option (List Nat) :=
  if inColumns k then fillAllColumns k total l m else fillAll k l m

end Riptide.Stack
