import Verif.Work.Sched
import Verif.Common.Writes
import Verif.Common.Num
/-! # Model of record-array conversion, `src/TileRepeat.cpp` -/
namespace Riptide.Record
open Riptide.Work

/-- A field of the record: its byte offset (`pOffsets[i]`) and the item size of its column
(`stOffsets`, `src/TileRepeat.cpp:14-18`). -/
structure Field where
  off : Nat
  size : Nat

/-- Copying `n` bytes: pairs of destination and source byte. -/
def copy (dst : Nat) (src : Int) (n : Nat) : List (Nat × Int) :=
  (List.range n).map fun (b : Nat) => (dst + b, src + (b : Int))

/-- The `while (startRow < endRow)` loops with one load and one store per row,
`src/TileRepeat.cpp:73-88`, 99-104, 127-132. -/
def singles (f : Field) (itemSize start endRow : Nat) : List (Nat × Int) :=
  (List.range' start (endRow - start)).flatMap fun (r : Nat) =>
    copy (r * f.size) (f.off + r * itemSize) f.size

/-- A gather of `lanes` rows, `src/TileRepeat.cpp:95-96`, 116-123: lane `k` is read at
`vindex[k] = itemSize * k` (32-bit), the result is stored contiguously. -/
def gatherRows (f : Field) (lanes itemSize start : Nat) : List (Nat × Int) :=
  (List.range lanes).flatMap fun (k : Nat) =>
    copy (start * f.size + k * f.size)
      ((f.off + start * itemSize : Nat) + IT.i32.wrap ((itemSize : Int) * (k : Int))) f.size

/-- The gather loop `while (startRow < endRow - lanes)` followed by the single loop,
`src/TileRepeat.cpp:90-134`. -/
def vectors (f : Field) (lanes itemSize start endRow : Nat) : List (Nat × Int) :=
  if _h : 0 < lanes ∧ start + lanes < endRow then
    gatherRows f lanes itemSize start ++ vectors f lanes itemSize (start + lanes) endRow
  else singles f itemSize start endRow
termination_by endRow - start

/-- Copying `n` bytes by words of 8 bytes while more than 8 are left and then by single bytes,
`src/TileRepeat.cpp:141-152`. -/
def words (dst : Nat) (src : Int) (n : Nat) : List (Nat × Int) :=
  if _h : 8 < n then copy dst src 8 ++ words (dst + 8) (src + 8) (n - 8) else copy dst src n
termination_by n

/-- The rows `[start, endRow)` of one column, `switch` in `src/TileRepeat.cpp:71-156`. -/
def column (f : Field) (itemSize start endRow : Nat) : List (Nat × Int) :=
  if f.size = 1 ∨ f.size = 2 then singles f itemSize start endRow
  else if f.size = 4 then vectors f 8 itemSize start endRow
  else if f.size = 8 then vectors f 4 itemSize start endRow
  else (List.range' start (endRow - start)).flatMap fun (r : Nat) =>
    words (r * f.size) (f.off + r * itemSize) f.size

/-- `CHUNKROWS`, `src/TileRepeat.cpp:36-42`. -/
def chunkRows (itemSize : Nat) : Nat := max 1 (32768 / (itemSize * 2))

/-- `ConvertRecArray`, `src/TileRepeat.cpp:33-159`: what is copied to column `c` (one of
`numArrays`).  `none`: division by zero for an item size of 0, or the loop that never ends because
`startRow` only advances inside the loop over the columns. -/
def convert (f : Field) (itemSize start total : Nat) : List (Nat × Int) :=
  if _h : start < total then
    let endRow := min total (start + chunkRows itemSize)
    column f itemSize start endRow ++ convert f itemSize endRow total
  else []
termination_by total - start
decreasing_by
  have : 0 < chunkRows itemSize := by unfold chunkRows; omega
  omega

/-- The work items of `RecordArrayToColMajor`, `src/TileRepeat.cpp:212-262`: everything at once up to
16384 rows, else items of 16384 rows. -/
def items (totalRows : Nat) : Nat := (totalRows + (chunk - 1)) / chunk

/-- The bytes copied to one column by `RecordArrayToColMajor`, `src/TileRepeat.cpp:163-265`, for the
work items completed in the order `calls`.  `numArrays` columns. -/
def toColumn (numArrays : Nat) (f : Field) (itemSize totalRows : Nat) (calls : List Nat) :
    Option (List (Nat × Int)) :=
  if itemSize = 0 then none
  else if numArrays = 0 ∧ 0 < totalRows then none
  else if totalRows > chunk then
    some (calls.flatMap fun w => convert f itemSize (w * chunk) (min totalRows (w * chunk + chunk)))
  else some (convert f itemSize 0 totalRows)

/-- Reading the sources and writing the destinations; `none`: access outside a buffer. -/
def run (mem : List Nat) (outLen : Nat) (pairs : List (Nat × Int)) : Option (List (Option Nat)) :=
  (pairs.mapM fun p => if 0 ≤ p.2 then (mem[p.2.toNat]?).map fun v => (p.1, v) else none).bind
    (runWrites outLen)

/-- The output column. -/
def colMajor (numArrays : Nat) (f : Field) (itemSize totalRows : Nat) (mem : List Nat)
    (calls : List Nat) : Option (List (Option Nat)) :=
  (toColumn numArrays f itemSize totalRows calls).bind (run mem (totalRows * f.size))

end Riptide.Record
