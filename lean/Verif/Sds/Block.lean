import Verif.Sds.Codec
/-! # Model of one array in an SDS file, `src/SDSFile.cpp`

Sizes are natural numbers: overflow of 64 bits, and of the 32 bits of band counts and item sizes, is not modelled. -/
namespace Riptide.Sds

/-- The product of dimensions. -/
def prod (dims : List Nat) : Nat := dims.foldl (· * ·) 1

/-- An array to be written, `SDSArrayInfo`, `src/SDSFile.h:444-474`; its length is the product of its dimensions. -/
structure Arr where
  dims : List Nat
  item : Nat
  data : List Nat
  deriving DecidableEq, Repr

/-- `SDS_ARRAY_BLOCK`, `src/SDSFile.h:271-298`, as far as reading uses it. -/
structure Blk where
  dims : List Nat
  item : Nat
  cSize : Nat
  uSize : Nat
  offset : Nat
  bandCount : Nat
  bandSize : Nat
  deriving DecidableEq, Repr

/-- `SDS_MAX_DIMS`, `src/SDSFile.h:265`. -/
def maxDims : Nat := 5

/-- `GetBytesPerRow`, `src/SDSFile.cpp:1252-1270`. -/
def rowBytes (dims : List Nat) (item : Nat) : Nat :=
  match dims with
  | [] => 0
  | d :: _ => if 0 < d then prod dims / d * item else 0

/-- `GetBytesPerBand`, `src/SDSFile.cpp:1276-1299`: bytes per band and number of bands. -/
def bands (dims : List Nat) (item bandSize : Nat) : Nat × Nat :=
  match dims with
  | [] => (0, 0)
  | d :: _ => if 0 < d then (prod dims / d * bandSize * item, (d + (bandSize - 1)) / bandSize) else (0, 0)

/-! ### Writing -/

/-- What is stored of some bytes: the compressed ones if they are fewer, `src/SDSFile.cpp:2650-2660,2681-2690`.  A failure is a very large
size. -/
def pack (c : Codec) (avail : Nat) (l : List Nat) : List Nat :=
  match c.comp avail l with
  | some z => if z.length < l.length then z else l
  | none => l

/-- The loop over the bands, `src/SDSFile.cpp:2636-2672`; the last band is all that remains. -/
def bandLoop (c : Codec) (perBand : Nat) : Nat → Nat → List Nat → List (List Nat)
  | 0, _, _ => []
  | 1, avail, rest => [pack c avail rest]
  | n + 2, avail, rest =>
    pack c avail (rest.take perBand) ::
      bandLoop c perBand (n + 1) (avail - (pack c avail (rest.take perBand)).length) (rest.drop perBand)

/-- The ends of the bands, `src/SDSFile.cpp:2665`. -/
def ends : Nat → List (List Nat) → List Nat
  | _, [] => []
  | e, z :: zs => (e + z.length) :: ends (e + z.length) zs

/-- The bytes of a banded array: the ends and then the bands, `src/SDSFile.cpp:2627-2676`. -/
def bandedBytes (zs : List (List Nat)) : List Nat := (ends 0 zs).flatMap (le 8) ++ zs.flatten

/-- `CompressFileArray`, `src/SDSFile.cpp:2555-2756`, for an offset which was taken from the header: the block and the bytes which are
written there.  `zstd` says whether the file is compressed, `bandSize` is that of the header.  The dimensions of a block are at most
five. -/
def writeArr (c : Codec) (zstd : Bool) (bandSize : Nat) (a : Arr) (offset : Nat) : Blk × List Nat :=
  let source := prod a.dims * a.item
  let pb := if zstd && 0 < bandSize then bands a.dims a.item bandSize else (0, 0)
  let band := if zstd && 0 < bandSize && pb.1 == 0 then 0 else bandSize
  let bytes :=
    if zstd then
      if 0 < pb.2 then bandedBytes (bandLoop c pb.1 pb.2 (c.bound source) a.data) else pack c (c.bound source) a.data
    else a.data
  (⟨a.dims.take maxDims, a.item, bytes.length, source, offset, pb.2, band⟩, bytes)

/-! ### Reading all of it -/

/-- One chunk which may be compressed, `src/SDSFile.cpp:1796-1824,1840-1874`. -/
def readChunk (c : Codec) (f : List Nat) (pos cSize uSize : Nat) : Option (List Nat) :=
  if cSize = uSize then readAt f pos uSize
  else match readAt f pos cSize with
    | some z => match c.decomp z with
      | some d => if d.length = uSize then some d else none
      | none => none
    | none => none

/-- The loop over the bands, `src/SDSFile.cpp:1780-1829`: `prev` is the end of the former band, `done` what was read before. -/
def readBands (c : Codec) (f : List Nat) (perBand uSize : Nat) : List Nat → Nat → Nat → Nat → Option (List Nat)
  | [], _, _, _ => some []
  | [e], prev, pos, done => readChunk c f pos (e - prev) (uSize - done)
  | e :: e' :: es, prev, pos, done =>
    match readChunk c f pos (e - prev) perBand with
    | some d => match readBands c f perBand uSize (e' :: es) e (pos + (e - prev)) (done + perBand) with
      | some r => some (d ++ r)
      | none => none
    | none => none

/-- `ReadAndDecompressArrayBlock`, `src/SDSFile.cpp:1728-1882`: the bytes of the destination, or a failure. -/
def readArr (c : Codec) (f : List Nat) (b : Blk) : Option (List Nat) :=
  if b.cSize = b.uSize then readAt f b.offset b.cSize
  else if 0 < b.bandCount then
    match readAt f b.offset (8 * b.bandCount) with
    | some h => readBands c f (b.bandSize * rowBytes b.dims b.item) b.uSize (unle8s b.bandCount h) 0 (b.offset + 8 * b.bandCount) 0
    | none => none
  else readChunk c f b.offset b.cSize b.uSize

/-! ### Reading the rows of a mask -/

/-- The rows at which a mask is set, one after the other, `src/SDSFile.cpp:1455-1515`. -/
def sift (bpr : Nat) : List Bool → List Nat → List Nat
  | [], _ => []
  | m :: ms, l => (if m then l.take bpr else []) ++ sift bpr ms (l.drop bpr)

/-- `SDS_FILTER`, `src/SDSFile.h:484-497`: the mask and how many of it are set. -/
structure Filter where
  mask : List Bool
  count : Nat
  deriving DecidableEq, Repr

/-- `DecompressWithFilter` reads only the first rows, `src/SDSFile.cpp:1316-1322`. -/
def special (uSize bpr : Nat) (flt : Filter) (row : Nat) : Bool :=
  decide (row = 0 ∧ (flt.mask.length : Int) ≤ ((uSize : Int) - bpr).tdiv bpr ∧ flt.mask.length = flt.count ∧
    bpr * flt.mask.length ≤ uSize)

/-- The part of the mask for `n` rows from row `row` on, `src/SDSFile.cpp:1418,1443-1447`. -/
def section_ (flt : Filter) (row n : Nat) : List Bool :=
  (flt.mask.drop row).take (if row + n > flt.mask.length then flt.mask.length - row else n)

/-- All bytes of a chunk, with `DecompressDataPartial`, `src/SDSFile.cpp:1403-1440`. -/
def readPart (c : Codec) (f : List Nat) (pos cSize uSize : Nat) : Option (List Nat) :=
  if cSize = uSize then readAt f pos uSize
  else match readAt f pos cSize with
    | some z => match c.part z uSize with
      | some d => if d.length = uSize then some d else none
      | none => none
    | none => none

/-- The first `n` bytes of a chunk, `src/SDSFile.cpp:1329-1374`. -/
def readFirst (c : Codec) (f : List Nat) (pos cSize uSize n : Nat) : Option (List Nat) :=
  if cSize = uSize then readAt f pos n
  else match readAt f pos (if c.bound n + slack < cSize then c.bound n + slack else cSize) with
    | some z => match c.part z n with
      | some d => if d.length = n then some d else none
      | none => none
    | none => none

/-- `DecompressWithFilter`, `src/SDSFile.cpp:1304-1522`: the bytes which are written from the start of the destination on.  `none` is a
division by zero or a failed read. -/
def readRows (c : Codec) (f : List Nat) (pos cSize uSize bpr : Nat) (flt : Filter) (row : Nat) : Option (List Nat) :=
  if bpr = 0 then none
  else if special uSize bpr flt row then readFirst c f pos cSize uSize (bpr * flt.mask.length)
  else if flt.mask.length < row then some []
  else if 0 < flt.count then
    match readPart c f pos cSize uSize with
    | some d => some (sift bpr (section_ flt row (uSize / bpr)) d)
    | none => none
  else some []

/-- The loop of `ReadAndDecompressBandWithFilter`, `src/SDSFile.cpp:1567-1632`: `i` bands of `perBand` bytes were read before.  The bands
behind the end of the mask are not looked at. -/
def bandRows (c : Codec) (f : List Nat) (perBand uSize bpr : Nat) (flt : Filter) : List Nat → Nat → Nat → Nat → Nat → Option (List Nat)
  | [], _, _, _, _ => some []
  | e :: es, i, prev, pos, row =>
    if bpr = 0 then none
    else
      let u := if es = [] then uSize - perBand * i else perBand
      if flt.mask.length ≤ row then some []
      else
        let m := section_ flt row (u / bpr)
        match (if 0 < m.count true then readRows c f pos (e - prev) u bpr flt row else some []) with
        | some d => match bandRows c f perBand uSize bpr flt es (i + 1) e (pos + (e - prev)) (row + m.length) with
          | some r => some (d ++ r)
          | none => none
        | none => none

/-- `ReadAndDecompressArrayBlockWithFilter`, `src/SDSFile.cpp:1650-1718`. -/
def readArrRows (c : Codec) (f : List Nat) (b : Blk) (flt : Filter) (row : Nat) : Option (List Nat) :=
  if 0 < b.bandCount then
    match readAt f b.offset (8 * b.bandCount) with
    | some h =>
      bandRows c f (b.bandSize * rowBytes b.dims b.item) b.uSize (rowBytes b.dims b.item) flt (unle8s b.bandCount h) 0 0
        (b.offset + 8 * b.bandCount) row
    | none => none
  else readRows c f b.offset b.cSize b.uSize (rowBytes b.dims b.item) flt row

/-- `PossiblyShrinkArray` for an array of the original container, `src/SDSFile.cpp:3374-3396`: the dimensions of the block itself are
changed. -/
def shrink (b : Blk) (flt : Filter) : Blk :=
  match b.dims with
  | [] => b
  | d :: ds => { b with dims := min flt.count d :: ds }

/-- `DecompressFileArray` with a mask, `src/SDSFile.cpp:2523-2530`: the rows written, and the number of rows of the new array. -/
def readMasked (c : Codec) (f : List Nat) (b : Blk) (mask : List Bool) : Option (List Nat) × Nat :=
  let flt : Filter := ⟨mask, mask.count true⟩
  let b' := shrink b flt
  (readArrRows c f b' flt 0, b'.dims.headD 0)

/-- `DecompressMultiArray` with a mask and without stacking, `src/SDSFile.cpp:5966-6004,6413-6434`: the count is that of the rows of the
first array of the file, and nothing is read of empty rows. -/
def readMaskedMulti (c : Codec) (f : List Nat) (b : Blk) (mask : List Bool) (rows : Nat) : Option (List Nat) × Nat :=
  let b' := shrink b ⟨mask, (mask.take rows).count true⟩
  (if rowBytes b'.dims b'.item = 0 then some [] else readArrRows c f b' ⟨mask, mask.count true⟩ 0, b'.dims.headD 0)

/-! ### The buffer for compressed data -/

/-- The size of the buffer of a core before an array is read, `src/SDSFile.cpp:2507-2520`, and for masked reads
`src/SDSFile.cpp:1664-1669`, which take a new one if there is none. -/
def tempSize (cur : Nat) (b : Blk) (masked : Bool) : Nat :=
  let t := if b.cSize ≠ b.uSize ∧ cur < b.cSize then b.cSize else cur
  if masked && t == 0 then b.cSize else t

end Riptide.Sds
