import Verif.Sds.Block
import Verif.Stack.Rotate
/-! # Stacked columns of the rows of a mask, `src/SDSFile.cpp` -/
namespace Riptide.Stack
open Riptide.Sds

/-- The check of the length of the mask, `src/SDSFile.cpp:7202-7213`: `fancy` is `IsFancy`, which need not be given. -/
def maskAccepted (fancy : Option Bool) (mask total : Nat) : Bool :=
  match fancy with
  | none => true
  | some f => !(decide (mask > total) || (!f && decide (mask < total)))

/-- The sum over the part of the mask for `n` rows from row `u` on, `src/SDSFile.cpp:7404-7422`; `SumBooleanMask` counts (C05). -/
def trues (mask : List Bool) (u n : Nat) : Nat :=
  if u < mask.length then ((mask.drop u).take (if u + n > mask.length then mask.length - u else n)).count true else 0

/-- `TrueCount` of the files, from row `u` on, as the first column with a filter computes it, `src/SDSFile.cpp:7402-7440`. -/
def firstCounts (mask : List Bool) : Nat → List Part → List Nat
  | _, [] => []
  | u, p :: l => trues mask u p.rows :: firstCounts mask (u + p.rows) l

/-- `TrueCount` of the files for the other columns, which take what is there, `src/SDSFile.cpp:7404-7424`. -/
def laterCounts (mask : List Bool) : Nat → List Part → List Nat → List Nat
  | u, p :: l, c :: cs => (if u < mask.length then c else 0) :: laterCounts mask (u + p.rows) l cs
  | _, _, _ => []

/-- What one worker has to do: `ArrayOffset`, `gapLength`, `OriginalArrayOffset`, `TrueCount` and the file, `src/SDSFile.cpp:7585-7672`. -/
structure FPacket where
  off : Nat
  gap : Nat
  orig : Nat
  count : Nat
  part : Part
  deriving Repr, DecidableEq

/-- The packets of a column with a filter, `src/SDSFile.cpp:7373-7494`: `o` is the next row of the memory and `u` the next row of the files. -/
def fpackets (extra : Nat) : Nat → Nat → List Part → List Nat → List FPacket
  | o, u, [p], c :: _ => [⟨o, c + extra, u, c, p⟩]
  | o, u, p :: q :: l, c :: cs => ⟨o, c, u, c, p⟩ :: fpackets extra (o + c) (u + p.rows) (q :: l) cs
  | _, _, _, _ => []

/-- The rows which are allocated for a column with a filter, `src/SDSFile.cpp:7480-7496,7560` with `PossiblyShrinkArray`, 3376-3396:
`count` is `BoolMaskTrueCount`, which has become the sum of the counts of the first column with a filter, 7469-7476. -/
def filteredRows (count extra : Nat) (cs : List Nat) : Nat := min count (cs.sum + extra)

/-- The rows of the files in a column that is not filtered, `src/SDSFile.cpp:7445-7459`: `counts` are those of the files, if a column with a filter came
before.  Files of which no row is selected have none. -/
def outsideRows (counts : Option (List Nat)) (l : List Part) : List Nat :=
  match counts with
  | none => l.map Part.rows
  | some cs => List.zipWith (fun p c => if c = 0 then 0 else p.rows) l cs

/-- The rows of a file at which the mask is set, `ReadAndDecompressArrayBlockWithFilter`, `src/SDSFile.cpp:1650-1718`, as C108 has it. -/
def siftRows (mask : List Bool) (b : Block) (x : FPacket) : List Nat :=
  sift (rowSize b) ((mask.drop x.orig).take (x.part.data.length / rowSize b)) x.part.data

/-- `DecompressMultiArray`, `src/SDSFile.cpp:5873-6055`, for arrays in C order with a filter: as `fill`, but only the rows of the mask are read, and
`TrueCount` rows are stretched and converted. -/
def fillFiltered (k : Block) (mask : List Bool) (x : FPacket) (m : List Nat) : Option (List Nat) :=
  match x.part.block with
  | none => gapAt k ⟨x.off, x.gap, x.part⟩ m
  | some b =>
    let c := (compat false k b).2
    if !c.ok then (if x.part.own = 0 then gapAt k ⟨x.off, x.gap, x.part⟩ m else none)
    else if x.part.own = 0 then some m
    else if rowSize b = 0 then some m
    else
      match put m (rowSize k * x.off) (siftRows mask b x) with
      | none => none
      | some m =>
        match (if c.strings then stringFixup 0 (m.drop (rowSize k * x.off)) x.count (cols b) b.item k.item
          else some (m.drop (rowSize k * x.off))) with
        | none => none
        | some t =>
          match (if c.convert then convertDType b.type k.type t (x.count * rowSize b) else some t) with
          | none => none
          | some t => some (m.take (rowSize k * x.off) ++ t)

/-- The workers, in some order, `src/SDSFile.cpp:7683-7687`. -/
def fillAllFiltered (k : Block) (mask : List Bool) : List FPacket → List Nat → Option (List Nat)
  | [], m => some m
  | x :: l, m =>
    match fillFiltered k mask x m with
    | none => none
    | some m => fillAllFiltered k mask l m

/-- `DecompressMultiArray` with a filter for an array in Fortran order, `src/SDSFile.cpp:5936-6030`: `buf` is what is in the buffer, whose rows have been
sifted as if they were in C order; all rows of the file are copied.  `total` is `Dimensions[0]` of the master block. -/
def fillColumnsFiltered (k : Block) (total : Nat) (x : FPacket) (buf : List Nat) (m : List Nat) : Option (List Nat) :=
  rotate k.item total x.off x.part.own buf (k.dims.getD 1 0) m

end Riptide.Stack
