import Verif.Sds.Share
/-! # Model of files which are read through a share, `src/SDSFile.cpp`

A name in the memory of shares is mapped to the bytes of the share.  Names and paths are their bytes.  Other users of the same names and
readers in the middle of a copy are not modelled here. -/
namespace Riptide.Sds

/-! ### Names -/

/-- The loop of `MakeShareName` over a file name, `src/SDSFile.cpp:1052-1063`: what is behind the last `\`, `:` or `/`; the first argument is
what was found before. -/
def lastPart : List Nat → List Nat → List Nat
  | found, [] => found
  | found, ch :: rest => lastPart (if ch = 92 ∨ ch = 58 ∨ ch = 47 then rest else found) rest

/-- `MakeShareName`, `src/SDSFile.cpp:1044-1094`, on Linux: `Global_`, the name of the share, `!` and the last part of the file name, in a
buffer of 300 bytes, `src/SDSFile.cpp:958`.  `none` is a write outside of the buffer. -/
def shareName (file share : List Nat) : Option (List Nat) :=
  let n := [71, 108, 111, 98, 97, 108, 95] ++ share ++ [33] ++ lastPart file file
  if n.length + 1 ≤ 300 then some n else none

/-- `shm_open` takes names of at most 255 bytes without `/`, as it does on Linux; `src/SharedMemory.cpp:719,809`. -/
def shmName (n : List Nat) : Bool := decide (n.length ≤ 255) && !n.contains 47

/-! ### Copying a file into a share -/

/-- A mask and which arrays it is used for, by their number: those of the original container, `src/SDSFile.cpp:3366-3396`. -/
structure ShareMask where
  mask : List Bool
  used : Nat → Bool

/-- `DecompressFileArray` into shared memory, `src/SDSFile.cpp:2477-2550`: the bytes which are written.  If something fails nothing is told,
and here nothing is written then (in the code what was done before stays). -/
def shareData (c : Codec) (f : List Nat) (mask : Option ShareMask) (i : Nat) (b : XBlk) : List Nat :=
  match mask with
  | some k => if k.used i then (readMasked c f b.blk k.mask).1.getD [] else (readArr c f b.blk).getD []
  | none => (readArr c f b.blk).getD []

/-- The block in the share of a block in a file, `src/SDSFile.cpp:4050-4061`. -/
def XBlk.moved (b : XBlk) (offset : Nat) : XBlk :=
  { b with blk := { b.blk with cSize := b.blk.uSize, offset := offset, bandCount := 0, bandSize := 0 } }

/-- `DecompressMetaData` into shared memory, `src/SDSFile.cpp:3852-3953`: `none` is a failure; a failed read of metadata which are not
compressed is not noticed. -/
def shareMeta (c : Codec) (f : List Nat) (h : Header) : Option (List Nat) :=
  if h.metaC ≠ 0 ∧ h.metaC ≠ h.metaU then readMeta c f h else some ((readMeta c f h).getD [])

/-- The outcome of a copy: there is no share, or there is one and the copy failed, or there is one. -/
inductive Copied where
  | refused
  | left (m : List Nat)
  | made (m : List Nat)
  deriving DecidableEq, Repr

/-- The header in the share before the arrays, `src/SDSFile.cpp:4006-4012`. -/
def copyHeader (h : Header) (written : Nat) : Header :=
  shareHeader h.nameSize h.nameCount h.metaU h.written written h.fileType h.author 0

/-- The blocks in the share. -/
def copyBlocks (h : Header) (blocks : List XBlk) : List XBlk :=
  List.zipWith XBlk.moved blocks (tally (copyHeader h 0).first (blocks.map fun b => b.blk.uSize))

/-- `CopyIntoSharedMemoryInternal`, `src/SDSFile.cpp:3962-4122`; the outer `none` is a write outside of the share.  The blocks are read into
the share and changed there; arrays which are made at the places of the file and never used, `src/SDSFile.cpp:3525-3527`, are left out, and a
failed read of the names is not noticed. -/
def copyShare (c : Codec) (f : List Nat) (mask : Option ShareMask) : Option Copied :=
  match readHeader f 0 with
  | none => some .refused
  | some h =>
    match readAt f h.blockOffset h.blockSize with
    | none => some .refused
    | some bs =>
      let blocks := readBlocks h.written bs
      let start := List.replicate (shareSize h.nameSize h.metaU h.blockSize (blocks.map fun b => b.blk.uSize)) 0
      let mh := copyHeader h 0
      let names := (readAt f h.nameOffset h.nameSize).getD []
      match shareMeta c f h with
      | none => (puts start [(0, mh.bytes), (mh.nameOffset, names)]).map .left
      | some md =>
        let moved := copyBlocks h blocks
        (puts start ([(0, mh.bytes), (mh.nameOffset, names), (mh.metaOffset, md),
            (mh.blockOffset, shareBlocks moved ++ bs.drop (h.written * 128))] ++
          List.zipWith (fun b d => (b.blk.offset, d)) moved (blocks.zipIdx.map fun p => shareData c f mask p.2 p.1) ++
          [(0, (copyHeader h h.written).bytes)])).map .made

/-! ### Reading -/

/-- The files and the shares. -/
structure World where
  files : List Nat → Option (List Nat)
  shares : List Nat → Option (List Nat)

/-- What is returned: a table in a share, a table of a file, or an error. -/
inductive Reply where
  | shared (o : ShareOut)
  | file (o : Out)
  | error
  deriving DecidableEq, Repr

/-- A world with another share. -/
def World.withShare (w : World) (n m : List Nat) : World := { w with shares := fun k => if k = n then some m else w.shares k }

/-- Reading of the share, `src/SDSFile.cpp:4401-4414`. -/
def readMapped (w : World) (n m : List Nat) : Option (World × Reply) :=
  match readShare m with
  | none => none
  | some o => some (w.withShare n o.mem, .shared o)

/-- Reading of the file, `src/SDSFile.cpp:4428-4458`; the mask is not modelled here. -/
def fileReply (c : Codec) (f : Option (List Nat)) : Reply :=
  match f.bind fun f => readFile c f 0 with
  | some o => .file o
  | none => .error

/-- `DecompressFile` with the name of a share, `src/SDSFile.cpp:4365-4458`, in the mode in which arrays are read: a share which is there is
read whatever the file is; else the file is copied into one, and read itself if that fails. -/
def readVia (c : Codec) (w : World) (file share : List Nat) (mask : Option ShareMask) : Option (World × Reply) :=
  match shareName file share with
  | none => none
  | some n =>
    match w.shares n with
    | some m => readMapped w n m
    | none =>
      match w.files file with
      | none => some (w, .error)
      | some f =>
        if shmName n then
          match copyShare c f mask with
          | none => none
          | some .refused => some (w, fileReply c (some f))
          | some (.left m) => some (w.withShare n m, fileReply c (some f))
          | some (.made m) => readMapped (w.withShare n m) n m
        else some (w, fileReply c (some f))

end Riptide.Sds
