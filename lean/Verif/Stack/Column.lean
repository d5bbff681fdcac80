import Verif.Stack.Types
import Verif.Stack.Convert
/-! # The memory of a stacked column, `src/SDSFile.cpp` -/
namespace Riptide.Stack
open Riptide.Sds

/-- What a valid file has of a column, `src/SDSFile.cpp:7055-7200`: the block of the column (`none` if the file lacks the column), its items as
`ReadAndDecompressArrayBlock` gives them, and `pDatasets[row].Length`. -/
structure Part where
  block : Option Block
  data : List Nat
  len : Nat
  deriving Repr, DecidableEq

/-- `pOriginalLengths[row]`, `src/SDSFile.cpp:6293-6301`: 0 for a column which is missing or has no dimensions. -/
def Part.own (p : Part) : Nat :=
  match p.block with
  | none => 0
  | some b => b.dims.headD 0

/-- The rows the file gets in the column, `calcLength` in the first pass, `src/SDSFile.cpp:7391-7411`, without a filter. -/
def Part.rows (p : Part) : Nat := if p.own = 0 then p.len else p.own

/-- The items in a row. -/
def cols (b : Block) : Nat := (b.dims.drop 1).foldl (· * ·) 1

/-- `oneRowSize`, `src/SDSFile.cpp:7502-7531`; `GetBytesPerRow`, 1252-1270, for a block with rows. -/
def rowSize (b : Block) : Nat := b.item * cols b

/-- What one worker has to do: `ArrayOffset`, `gapLength` and the file, `src/SDSFile.cpp:7585-7672`. -/
structure Packet where
  off : Nat
  gap : Nat
  part : Part
  deriving Repr, DecidableEq

/-- The packets of a column from row `o` on, `src/SDSFile.cpp:7373-7380,7484-7494,7634`: offsets are the sums of the lengths; the rows which are
reserved (`extra`) are taken as rows of the last file. -/
def packets (extra : Nat) : Nat → List Part → List Packet
  | _, [] => []
  | o, [p] => [⟨o, p.rows + extra, p⟩]
  | o, p :: q :: l => ⟨o, p.rows, p⟩ :: packets extra (o + p.rows) (q :: l)

/-- `TotalRowLength`, `src/SDSFile.cpp:7484-7496`. -/
def totalRows (extra : Nat) (l : List Part) : Nat := (l.map Part.rows).sum + extra

/-- The bits of `SDSGetDefaultType`, `src/SDSFile.cpp:97-180`; 13 is the quiet NaN of `long double`. -/
def defaultBits (t : Nat) : Nat :=
  match itemOf t with
  | some .bool => 0
  | some (.int i) => toBits i i.inv
  | some (.float f) => f.qnan
  | none => if t = 18 ∨ t = 19 then 0 else if t = 13 then 0x7FFFC000000000000000 else 2 ^ 63

/-- `GapFill`, `src/SDSFile.cpp:4766-4832`: the bytes for `rows` rows.  The counter of the loops has 32 bits: its overflow is undefined behaviour. -/
def gapFill (k : Block) (rows : Nat) : Option (List Nat) :=
  let bytes := rowSize k * rows
  if k.item = 1 ∨ k.item = 2 ∨ k.item = 4 ∨ k.item = 8 then
    if bytes / k.item < 2 ^ 31 then some (List.replicate (bytes / k.item) (le k.item (defaultBits k.type))).flatten else none
  else some (List.replicate bytes 0)

/-- `GapFillAny` for arrays in C order, `src/SDSFile.cpp:5223-5290`. -/
def gapAt (k : Block) (x : Packet) (m : List Nat) : Option (List Nat) :=
  match gapFill k x.gap with
  | none => none
  | some l => put m (rowSize k * x.off) l

/-- `DecompressMultiArray`, `src/SDSFile.cpp:5873-6055`, for arrays in C order and without a filter.  `k` is the master block.  Strings of 32-bit
characters are stretched byte by byte here, which comes to the same.  The gap of a block which is not compatible has no description unless it
has no rows, 7637-7648. -/
def fill (k : Block) (x : Packet) (m : List Nat) : Option (List Nat) :=
  match x.part.block with
  | none => gapAt k x m
  | some b =>
    let c := (compat false k b).2
    if !c.ok then (if x.part.own = 0 then gapAt k x m else none)
    else if x.part.own = 0 then some m
    else if rowSize b = 0 then some m
    else
      match put m (rowSize k * x.off) x.part.data with
      | none => none
      | some m =>
        let n := x.part.data.length / rowSize b
        match (if c.strings then stringFixup 0 (m.drop (rowSize k * x.off)) n (cols b) b.item k.item else some (m.drop (rowSize k * x.off))) with
        | none => none
        | some t =>
          match (if c.convert then convertDType b.type k.type t (n * rowSize b) else some t) with
          | none => none
          | some t => some (m.take (rowSize k * x.off) ++ t)

/-- The workers, in some order, `src/SDSFile.cpp:7683-7687`.  The packets are taken as done one after the other. -/
def fillAll (k : Block) : List Packet → List Nat → Option (List Nat)
  | [], m => some m
  | x :: l, m =>
    match fill k x m with
    | none => none
    | some m => fillAll k l m

/-- The blocks of a column. -/
def blocks (l : List Part) : List Block := l.filterMap Part.block

end Riptide.Stack
