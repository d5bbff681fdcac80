import Verif.Sds.Block
/-! # Model of the layout of an SDS file, `src/SDSFile.cpp`

Numbers in files are their bit patterns as natural numbers; offsets and sizes do not overflow 64 bits here. -/
namespace Riptide.Sds

/-- `SDS_PAD_NUMBER`, `src/SDSFile.h:60`: up to the next multiple of 512; the masking of bits is written as a division. -/
def padTo (n : Nat) : Nat := (n + 511) / 512 * 512

/-- The bytes of a structure: widths and values of its members, one after the other. -/
def enc : List (Nat × Nat) → List Nat
  | [] => []
  | (w, v) :: l => le w v ++ enc l

/-- The values of the members of a structure with these widths. -/
def dec : List Nat → List Nat → List Nat
  | [], _ => []
  | w :: ws, l => unle (l.take w) :: dec ws (l.drop w)

/-! ### The header -/

/-- `SDS_FILE_HEADER`, `src/SDSFile.h:302-370`.  The members for bands, which are always zero, are left out. -/
structure Header where
  magic : Nat
  version : Nat
  low : Nat
  compMode : Nat
  compType : Nat
  compLevel : Nat
  nameSize : Nat
  nameOffset : Nat
  nameCount : Nat
  fileType : Nat
  stackType : Nat
  author : Nat
  metaSize : Nat
  metaOffset : Nat
  metaC : Nat
  metaU : Nat
  blockSize : Nat
  blockOffset : Nat
  written : Nat
  first : Nat
  totalC : Nat
  totalU : Nat
  bandSize : Nat
  sectSize : Nat
  sectOffset : Nat
  sectCount : Nat
  sectReserved : Nat
  fileOffset : Nat
  stamp : Nat
  deriving DecidableEq, Repr

/-- The members in their order with their widths; there are two unused bytes before `NameBlockSize`, and 304 at the end. -/
def Header.members (h : Header) : List (Nat × Nat) :=
  [(4, h.magic), (2, h.version), (2, h.low), (2, h.compMode), (2, h.compType), (2, h.compLevel), (2, 0),
   (8, h.nameSize), (8, h.nameOffset), (8, h.nameCount), (2, h.fileType), (2, h.stackType), (4, h.author),
   (8, h.metaSize), (8, h.metaOffset), (8, h.metaC), (8, h.metaU), (8, h.blockSize), (8, h.blockOffset),
   (8, h.written), (8, h.first), (8, h.totalC), (8, h.totalU), (8, 0), (8, 0), (8, 0), (8, h.bandSize),
   (8, h.sectSize), (8, h.sectOffset), (8, h.sectCount), (8, h.sectReserved), (8, h.fileOffset), (8, h.stamp), (304, 0)]

/-- The widths of the members. -/
def headerWidths : List Nat :=
  [4, 2, 2, 2, 2, 2, 2, 8, 8, 8, 2, 2, 4, 8, 8, 8, 8, 8, 8, 8, 8, 8, 8, 8, 8, 8, 8, 8, 8, 8, 8, 8, 8, 304]

/-- The bytes of a header as they are written. -/
def Header.bytes (h : Header) : List Nat := enc h.members

/-- A header from the values of its members. -/
def Header.ofVals (v : List Nat) : Header :=
  let g : Nat → Nat := fun i => v.getD i 0
  ⟨g 0, g 1, g 2, g 3, g 4, g 5, g 7, g 8, g 9, g 10, g 11, g 12, g 13, g 14, g 15, g 16, g 17, g 18, g 19, g 20, g 21, g 22, g 26,
   g 27, g 28, g 29, g 30, g 31, g 32⟩

/-- `SDS_MAGIC`, `src/SDSFile.h:58`. -/
def sdsMagic : Nat := 0x20534453

/-- `ReadFileHeader`, `src/SDSFile.cpp:1952-1986`. -/
def readHeader (f : List Nat) (pos : Nat) : Option Header :=
  match readAt f pos 512 with
  | some l =>
    let h := Header.ofVals (dec headerWidths l)
    if h.magic = sdsMagic ∧ h.version = 4 then some h else none
  | none => none

/-! ### The blocks of the arrays -/

/-- The other members of `SDS_ARRAY_BLOCK`, `src/SDSFile.h:271-298`. -/
structure XBlk where
  blk : Blk
  dtype : Nat
  flags : Nat
  strides : List Nat
  deriving DecidableEq, Repr

/-- Five numbers, `src/SDSFile.cpp:2724-2733`. -/
def five (l : List Nat) : List Nat := (List.range 5).map fun i => l.getD i 0

/-- The members of a block in their order, `src/SDSFile.h:271-298`; the number of dimensions is `NDim`. -/
def XBlk.members (b : XBlk) : List (Nat × Nat) :=
  [(2, 0), (2, 128), (1, 253), (1, 1), (1, b.dtype), (1, b.blk.dims.length), (4, b.blk.item), (4, b.flags)] ++
    ((five b.blk.dims).map fun d => (8, d)) ++ ((five b.strides).map fun d => (8, d)) ++
    [(8, b.blk.offset), (8, b.blk.cSize), (8, b.blk.uSize), (4, b.blk.bandCount), (4, b.blk.bandSize)]

/-- The widths of the members. -/
def blockWidths : List Nat := [2, 2, 1, 1, 1, 1, 4, 4, 8, 8, 8, 8, 8, 8, 8, 8, 8, 8, 8, 8, 8, 4, 4]

/-- A block from the values of its members; there are `NDim` dimensions and strides. -/
def XBlk.ofVals (v : List Nat) : XBlk :=
  let g : Nat → Nat := fun i => v.getD i 0
  ⟨⟨[g 8, g 9, g 10, g 11, g 12].take (g 5), g 6, g 19, g 20, g 18, g 21, g 22⟩, g 4, g 7, [g 13, g 14, g 15, g 16, g 17].take (g 5)⟩

/-- The blocks in some bytes of 128 each. -/
def readBlocks : Nat → List Nat → List XBlk
  | 0, _ => []
  | n + 1, l => XBlk.ofVals (dec blockWidths (l.take 128)) :: readBlocks n (l.drop 128)

/-! ### Writing -/

/-- One array to be written with what is kept about it, `SDSArrayInfo`, `src/SDSFile.h:444-474`. -/
structure ArrIn where
  arr : Arr
  dtype : Nat
  flags : Nat
  strides : List Nat
  deriving DecidableEq, Repr

/-- What is given to `SDSWriteFile`, `SDS_WRITE_INFO`. -/
structure Input where
  names : List Nat
  nameCount : Nat
  metaData : List Nat
  arrays : List ArrIn
  zstd : Bool
  level : Nat
  fileType : Nat
  author : Nat
  bandSize : Nat
  deriving DecidableEq, Repr

/-- `FillFileHeader`, `src/SDSFile.cpp:1874-1938`, and the two sizes set after it, `src/SDSFile.cpp:2293-2294`. -/
def fillHeader (fo : Nat) (x : Input) (metaC : Nat) : Header where
  magic := sdsMagic
  version := 4
  low := 6
  compMode := 2
  compType := if x.zstd then 1 else 0
  compLevel := x.level
  nameSize := x.names.length
  nameOffset := 512 + fo
  nameCount := x.nameCount
  fileType := x.fileType
  stackType := 0
  author := x.author
  metaSize := metaC
  metaOffset := 512 + fo + padTo x.names.length
  metaC := metaC
  metaU := x.metaData.length
  blockSize := x.arrays.length * 128
  blockOffset := 512 + fo + padTo x.names.length + padTo metaC
  written := 0
  first := 512 + fo + padTo x.names.length + padTo metaC + padTo (x.arrays.length * 128)
  totalC := 0
  totalU := 0
  bandSize := x.bandSize
  sectSize := 0
  sectOffset := 0
  sectCount := 0
  sectReserved := 0
  fileOffset := fo
  stamp := 0

/-- What is stored of the metadata, `src/SDSFile.cpp:2252-2281`; a failure of the compression ends the writing. -/
def packMeta (c : Codec) (zstd : Bool) (l : List Nat) : Option (List Nat) :=
  if zstd then
    match c.comp (c.bound l.length) l with
    | some z => if l.length ≤ z.length then some l else some z
    | none => none
  else some l

/-- Writes one after the other. -/
def writes (f : List Nat) (ws : List (Nat × List Nat)) : List Nat := ws.foldl (fun f w => writeAt f w.1 w.2) f

/-- `AddArrayCompressedSize`, `src/SDSFile.h:377-386`, called for the arrays in some order: what `TotalArrayCompressedSize` was before
array `i`. -/
def allocAt (size : Nat → Nat) : List Nat → Nat → Nat → Nat
  | [], tot, _ => tot
  | j :: js, tot, i => if i = j then tot else allocAt size js (tot + padTo (size j)) i

/-- `TotalArrayCompressedSize` after the arrays. -/
def allocTotal (size : Nat → Nat) : List Nat → Nat → Nat
  | [], tot => tot
  | j :: js, tot => allocTotal size js (tot + padTo (size j))

/-- The array at an index. -/
def Input.arrayAt (x : Input) (i : Nat) : ArrIn := x.arrays.getD i ⟨⟨[], 0, []⟩, 0, 0, []⟩

/-- How many bytes of an array are stored. -/
def Input.stored (c : Codec) (x : Input) (i : Nat) : Nat := (writeArr c x.zstd x.bandSize (x.arrayAt i).arr 0).2.length

/-- Where an array is stored if the offsets were taken in this order. -/
def Input.offset (c : Codec) (x : Input) (fo metaC : Nat) (order : List Nat) (i : Nat) : Nat :=
  (fillHeader fo x metaC).first + allocAt (x.stored c) order 0 i

/-- The block of an array, `src/SDSFile.cpp:2704-2739`. -/
def Input.block (c : Codec) (x : Input) (fo metaC : Nat) (order : List Nat) (i : Nat) : XBlk :=
  let a := x.arrayAt i
  ⟨(writeArr c x.zstd x.bandSize a.arr (x.offset c fo metaC order i)).1, a.dtype, a.flags, a.strides.take maxDims⟩

/-- The header after all arrays were written: the counts are the sums of what the threads added, `src/SDSFile.cpp:2696-2702`. -/
def fullHeader (c : Codec) (fo : Nat) (x : Input) (metaC : Nat) (order : List Nat) : Header :=
  { fillHeader fo x metaC with
    written := order.length
    totalC := allocTotal (x.stored c) order 0
    totalU := (order.map fun i => prod (x.arrayAt i).arr.dims * (x.arrayAt i).arr.item).sum }

/-- A header with other marks for sections, stacking and time, which `EndCompressedFile` and `SDSConcatFiles` set,
`src/SDSFile.cpp:2355-2358,2444,6738-6743`. -/
def Header.marked (h : Header) (size offset count reserved stamp stack : Nat) : Header :=
  { h with sectSize := size, sectOffset := offset, sectCount := count, sectReserved := reserved, stamp := stamp, stackType := stack }

/-- The writes of `StartCompressedFile`, `src/SDSFile.cpp:2295-2308`. -/
def startWrites (fo : Nat) (x : Input) (m : List Nat) : List (Nat × List Nat) :=
  let h := fillHeader fo x m.length
  [(fo, h.bytes), (h.nameOffset, x.names), (h.metaOffset, m)]

/-- The writes of the arrays, `src/SDSFile.cpp:2745-2746`: the offsets were taken in one order and the bytes are written in another. -/
def arrayWrites (c : Codec) (fo : Nat) (x : Input) (metaC : Nat) (order worder : List Nat) : List (Nat × List Nat) :=
  worder.map fun i =>
    (x.offset c fo metaC order i, (writeArr c x.zstd x.bandSize (x.arrayAt i).arr (x.offset c fo metaC order i)).2)

/-- The writes at the end of `EndCompressedFile`, `src/SDSFile.cpp:2446-2458`. -/
def endWrites (c : Codec) (fo : Nat) (x : Input) (metaC : Nat) (order : List Nat) (h : Header) : List (Nat × List Nat) :=
  [(fo, h.bytes), (h.blockOffset, (List.range x.arrays.length).flatMap fun i => enc (x.block c fo metaC order i).members)]

/-- `SDSWriteFileInternal` for a file without sections, `src/SDSFile.cpp:3032-3112`; the file is new. -/
def writeFile (c : Codec) (x : Input) (order worder : List Nat) (stamp : Nat) : Option (List Nat) :=
  match packMeta c x.zstd x.metaData with
  | none => none
  | some m =>
    some (writes [] (startWrites 0 x m ++ arrayWrites c 0 x m.length order worder ++
      endWrites c 0 x m.length order { fullHeader c 0 x m.length order with stamp := stamp }))

/-! ### Reading -/

/-- What is returned of an array. -/
structure OutArr where
  dims : List Nat
  item : Nat
  dtype : Nat
  flags : Nat
  strides : List Nat
  data : Option (List Nat)
  deriving DecidableEq, Repr

/-- What is returned of a file: the type, the bytes of the names and their number, the metadata, the arrays. -/
structure Out where
  fileType : Nat
  names : List Nat
  nameCount : Nat
  metaData : Option (List Nat)
  arrays : List OutArr
  deriving DecidableEq, Repr

/-- `DecompressMetaData`, `src/SDSFile.cpp:3852-3953`: `none` are metadata which were not read. -/
def readMeta (c : Codec) (f : List Nat) (h : Header) : Option (List Nat) :=
  if h.metaC ≠ 0 ∧ h.metaC ≠ h.metaU then
    match readAt f h.metaOffset h.metaC with
    | some z => match c.decomp z with
      | some d => if d.length = h.metaU then some d else none
      | none => none
    | none => none
  else readAt f h.metaOffset h.metaC

/-- One array, `DecompressFileArray`, `src/SDSFile.cpp:2477-2550`, without a mask. -/
def readOne (c : Codec) (f : List Nat) (b : XBlk) : OutArr :=
  ⟨b.blk.dims, b.blk.item, b.dtype, b.flags, b.strides, readArr c f b.blk⟩

/-- `DecompressFileInternal`, `src/SDSFile.cpp:4217-4345`, from a header on; `none` is an error. -/
def readFile (c : Codec) (f : List Nat) (start : Nat) : Option Out :=
  match readHeader f start with
  | none => none
  | some h =>
    match readAt f h.nameOffset h.nameSize with
    | none => none
    | some names =>
      match readAt f h.blockOffset h.blockSize with
      | none => none
      | some bs => some ⟨h.fileType, names, h.nameCount, readMeta c f h, (readBlocks h.written bs).map (readOne c f)⟩

end Riptide.Sds
