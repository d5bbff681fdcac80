import Verif.Sds.File
/-! # Model of tables in shared memory, `src/SDSFile.cpp`, `src/SDSFilePython.cpp`

A mapping is its bytes; it has exactly the size which was asked for (the rest of the last page is not modelled), and accesses outside are
`none`.  The signal which is sent when there is not enough memory behind a mapping is not modelled. -/
namespace Riptide.Sds

/-- An array in the memory of Python, `SDSArrayInfo`, `src/SDSFile.h:444-474`: its bytes are from `base` on in some memory. -/
structure Src where
  mem : List Nat
  base : Nat
  dims : List Nat
  item : Nat
  dtype : Nat
  flags : Nat
  strides : List Int
  deriving DecidableEq, Repr

/-- What is given to `SDSWriteFile`, `SDS_WRITE_INFO`, when there is the name of a share. -/
structure Table where
  names : List Nat
  nameCount : Nat
  metaData : List Nat
  arrays : List Src
  fileType : Nat
  author : Nat
  bandSize : Nat
  deriving DecidableEq, Repr

/-- `ArrayLength * ItemSize`, `src/SDSFile.cpp:2904,2954-2955`; an array without dimensions has one item, `src/RipTide.cpp:263-281`. -/
def Src.size (a : Src) : Nat := prod a.dims * a.item

/-- The bits of an `int64_t`. -/
def bits64 (s : Int) : Nat := (s % 2 ^ 64).toNat

/-- The `int64_t` with these bits. -/
def int64 (n : Nat) : Int := if n < 2 ^ 63 then (n : Int) else (n : Int) - 2 ^ 64

/-- The dimensions or strides which are recorded, `src/SDSFile.cpp:2961-2978`, `src/SDSFilePython.cpp:1404-1432`: at most five, and one
zero if there are none. -/
def recorded {α : Type} (zero : α) (l : List α) : List α := if l = [] then [zero] else l.take 5

/-- The block of an array, `src/SDSFile.cpp:2953-2983`; the members for bands are not set and the memory was zero. -/
def Src.block (a : Src) (offset : Nat) : XBlk :=
  ⟨⟨recorded 0 a.dims, a.item, a.size, a.size, offset, 0, 0⟩, a.dtype, a.flags, (recorded 0 a.strides).map bits64⟩

/-- The members of a block in shared memory in their order, `src/SDSFile.h:271-298`: the type of compression is none,
`src/SDSFile.cpp:2958,4061`. -/
def XBlk.shareMembers (b : XBlk) : List (Nat × Nat) :=
  [(2, 0), (2, 128), (1, 253), (1, 0), (1, b.dtype), (1, b.blk.dims.length), (4, b.blk.item), (4, b.flags)] ++
    ((five b.blk.dims).map fun d => (8, d)) ++ ((five b.strides).map fun d => (8, d)) ++
    [(8, b.blk.offset), (8, b.blk.cSize), (8, b.blk.uSize), (4, b.blk.bandCount), (4, b.blk.bandSize)]

/-- The bytes of some blocks. -/
def shareBlocks (l : List XBlk) : List Nat := l.flatMap fun b => enc b.shareMembers

/-- The offsets of parts of these sizes one after the other, `src/SDSFile.cpp:2946,2957,2986`. -/
def tally : Nat → List Nat → List Nat
  | _, [] => []
  | at_, n :: ns => at_ :: tally (at_ + padTo n) ns

/-- A write into a mapping: `none` is a write outside. -/
def putAt (m : List Nat) (pos : Nat) (l : List Nat) : Option (List Nat) :=
  if l = [] ∨ pos + l.length ≤ m.length then some (writeAt m pos l) else none

/-- Writes one after the other. -/
def puts : List Nat → List (Nat × List Nat) → Option (List Nat)
  | m, [] => some m
  | m, w :: ws =>
    match putAt m w.1 w.2 with
    | some m' => puts m' ws
    | none => none

/-- The header in shared memory, `FillFileHeader`, `src/SDSFile.cpp:1874-1938`, with the arguments of `src/SDSFile.cpp:2887-2891`. -/
def shareHeader (nameSize nameCount metaSize arrays written fileType author bandSize : Nat) : Header where
  magic := sdsMagic
  version := 4
  low := 6
  compMode := 4
  compType := 0
  compLevel := 0
  nameSize := nameSize
  nameOffset := 512
  nameCount := nameCount
  fileType := fileType
  stackType := 0
  author := author
  metaSize := metaSize
  metaOffset := 512 + padTo nameSize
  metaC := metaSize
  metaU := metaSize
  blockSize := arrays * 128
  blockOffset := 512 + padTo nameSize + padTo metaSize
  written := written
  first := 512 + padTo nameSize + padTo metaSize + padTo (arrays * 128)
  totalC := 0
  totalU := 0
  bandSize := bandSize
  sectSize := 0
  sectOffset := 0
  sectCount := 0
  sectReserved := 0
  fileOffset := 0
  stamp := 0

/-- The size which is asked for, `CalculateSharedMemorySize`, `src/SDSFile.cpp:2768-2795`, and `src/SDSFile.cpp:2899-2905`. -/
def shareSize (nameSize metaSize blockSize : Nat) (sizes : List Nat) : Nat :=
  512 + padTo nameSize + padTo metaSize + padTo blockSize + (sizes.map padTo).sum

/-- The band size which is used, `src/SDSFile.cpp:2872-2873`. -/
def bandClamp (n : Nat) : Nat := if n < 10000 ∧ 0 < n then 10000 else n

/-- The metadata: their size is kept in 32 bits, `src/SDSFilePython.cpp:1458`. -/
def Table.metaStored (t : Table) : List Nat := t.metaData.take (t.metaData.length % 2 ^ 32)

/-- The header of a table in shared memory. -/
def Table.header (t : Table) : Header :=
  shareHeader t.names.length t.nameCount t.metaStored.length t.arrays.length t.arrays.length t.fileType t.author (bandClamp t.bandSize)

/-- The blocks of a table. -/
def Table.blocks (t : Table) : List XBlk :=
  List.zipWith (fun a o => Src.block a o) t.arrays (tally t.header.first (t.arrays.map Src.size))

/-- The size of the share of a table. -/
def Table.shareSize (t : Table) : Nat :=
  Sds.shareSize t.names.length t.metaStored.length (t.arrays.length * 128) (t.arrays.map Src.size)

/-- The bytes which are copied of an array: as many as it has from its first item on, `src/SDSFile.cpp:2999-3000`. -/
def Src.copied (a : Src) : Option (List Nat) := readAt a.mem a.base a.size

/-- The writes of `SDSWriteFileInternal` into shared memory in their order, `src/SDSFile.cpp:2929-3001`. -/
def shareWrites (h : Header) (names metaData : List Nat) (blocks : List XBlk) (datas : List (List Nat)) : List (Nat × List Nat) :=
  [(0, h.bytes), (h.nameOffset, names), (h.metaOffset, metaData), (h.blockOffset, shareBlocks blocks)] ++
    List.zipWith (fun b d => (b.blk.offset, d)) blocks datas

/-- `SDSWriteFileInternal` with the name of a share, `src/SDSFile.cpp:2882-3032`: the bytes of the share.  A share which was there is
removed before, so that the memory is zero, `src/SharedMemory.cpp:719-726`. -/
def writeShare (t : Table) : Option (List Nat) :=
  match t.arrays.mapM Src.copied with
  | none => none
  | some datas => puts (List.replicate t.shareSize 0) (shareWrites t.header t.names t.metaStored t.blocks datas)

/-! ### Reading -/

/-- An array which is made of a part of a share. -/
structure View where
  off : Nat
  dims : List Nat
  item : Nat
  dtype : Nat
  flags : Nat
  strides : List Int
  deriving DecidableEq, Repr

/-- What is returned; the arrays are parts of the memory. -/
structure ShareOut where
  fileType : Nat
  names : List Nat
  nameCount : Nat
  metaData : List Nat
  views : List View
  mem : List Nat
  deriving DecidableEq, Repr

/-- `FixupDType`, `src/SDSFilePython.cpp:599-630`. -/
def fixType (dtype item : Nat) : Nat :=
  if dtype = 7 then (if item = 4 then 5 else 9)
  else if dtype = 8 then (if item = 4 then 6 else 10)
  else dtype

/-- The array of a block, `src/SDSFilePython.cpp:916-935`; strings without a width get one byte, `src/RipTide.cpp:747-751`. -/
def viewOf (b : XBlk) : View :=
  ⟨b.blk.offset, b.blk.dims, if fixType b.dtype b.blk.item = 18 ∧ b.blk.item = 0 then 1 else b.blk.item, fixType b.dtype b.blk.item, b.flags,
    b.strides.map int64⟩

/-- `AllocateNumpyArrayForData`, `src/RipTide.cpp:713-786`: for strings without a width a zero is written, `src/RipTide.cpp:766-771`. -/
def runt (m : List Nat) (b : XBlk) : Option (List Nat) :=
  if fixType b.dtype b.blk.item = 18 ∧ b.blk.item = 0 then putAt m b.blk.offset [0] else some m

/-- The writes of all arrays. -/
def runts : List Nat → List XBlk → Option (List Nat)
  | m, [] => some m
  | m, b :: bs =>
    match runt m b with
    | some m' => runts m' bs
    | none => none

/-- `ReadFromSharedMemory`, `src/SDSFilePython.cpp:874-953`: the header is not checked.  The number of dimensions is not more than five,
as it is written. -/
def readShare (m : List Nat) : Option ShareOut :=
  match readAt m 0 512 with
  | none => none
  | some hb =>
    let h := Header.ofVals (dec headerWidths hb)
    match readAt m h.nameOffset h.nameSize with
    | none => none
    | some names =>
      match readAt m h.metaOffset h.metaSize with
      | none => none
      | some metaData =>
        match readAt m h.blockOffset (h.written * 128) with
        | none => none
        | some bs =>
          let blocks := readBlocks h.written bs
          match runts m blocks with
          | none => none
          | some m' => some ⟨h.fileType, names, h.nameCount, metaData, blocks.map viewOf, m'⟩

end Riptide.Sds
