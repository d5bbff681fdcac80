import Verif.Sds.Codec
/-! # Arrays and byte strings compressed in memory, `src/Compress.cpp` and `src/ZstdCompress.cpp` -/
namespace Riptide.Compress
open Riptide.Sds (le unle)

/-- What a call does: it returns a value, it sets an exception, or it reads or writes memory which it must not touch. -/
inductive Res (α : Type) where
  | ok (a : α)
  | err
  | ub
  deriving Repr, DecidableEq

/-- zstd as `src/Compress.cpp` calls it: `ZSTD_compress2` with a level, `ZSTD_getFrameContentSize`, `ZSTD_decompress` and
`ZSTD_compressBound`.  Simplified: zstd itself is not modelled; `none` stands for its error codes and for an unknown size. -/
structure Zstd where
  comp : Nat → Nat → List Nat → Option (List Nat)
  size : List Nat → Option Nat
  decomp : List Nat → Option (List Nat)
  bound : Nat → Nat

/-- The memory of a process: whether `ZSTD_createCCtx` finds memory for the array with this number, whether checksums are on
(`src/ZstdCompress.cpp:12`), and what is in memory which nobody has written. -/
structure Env where
  memory : Nat → Bool
  checksum : Bool
  junk : Nat → Nat

/-- `len` bytes which nobody has written.  Simplified: the same everywhere, `src/Compress.cpp:55,403`. -/
def Env.bytes (e : Env) (len : Nat) : List Nat := (List.range len).map e.junk

/-- `ZSTD_error_memory_allocation`, `zstd_errors.h`, a positive number and no error code. -/
def memoryError : Nat := 64

/-- `ZstdCompressData`, `src/ZstdCompress.cpp:25-51`: without a context the number 64 is returned, which `ZSTD_isError` takes for a length:
the result is 64 bytes which nobody has written.  `t` is the number of the array. -/
def compressData (c : Zstd) (e : Env) (t level room : Nat) (l : List Nat) : Option (List Nat) :=
  if e.checksum && !e.memory t then some (e.bytes memoryError) else c.comp level room l

/-- The levels which are used, `src/Compress.cpp:191-194` and `390-394` (`ZSTD_CLEVEL_DEFAULT` is 3, `ZSTD_MAX_CLEVEL` is 22). -/
def levelOf (level : Int) : Nat :=
  let l := if level ≤ 0 then 3 else level
  (if l > 22 then 22 else l).toNat

/-- An array: its type number, its `itemsize`, its flags, its dimensions and its bytes in C order, `ArrayInfo`, `src/MultiKey.h:6-28`. -/
structure Arr where
  dtype : Nat
  item : Nat
  flags : Nat
  dims : List Nat
  data : List Nat
  deriving Repr, DecidableEq

/-- The number of items, `ArrayLength`, `CalcArrayLength`, `src/RipTide.cpp:263-290`. -/
def count (dims : List Nat) : Nat := dims.foldl (· * ·) 1

/-- The length of `NUMPY_HEADERSIZE`, `src/Compress.h:38-66`. -/
def headerLen : Nat := 56

/-- `FillInNumpyHeader`, `src/Compress.cpp:20-45`, and `compressedSize` which is set at 128, as bytes: magic number, kind of compression, type,
dimensions, item size, flags, four bytes of padding, three dimensions (those which are not used are not written), length of the frame, a
pointer which is not used. -/
def header (e : Env) (a : Arr) (frame : Nat) : List Nat :=
  let nd := if a.dims.length > 3 then 3 else a.dims.length
  [253, 1, a.dtype % 256, nd] ++ le 4 a.item ++ le 4 a.flags ++ e.bytes 4
    ++ (a.dims.take nd).flatMap (le 8) ++ e.bytes (8 * (3 - nd)) ++ le 8 frame ++ e.bytes 8

/-- `CompressMemoryArray` for one array, `src/Compress.cpp:113-146`, and its result, `260-315`: an array which could not be compressed is
`None`; a frame without a size is an error. -/
def compressOne (c : Zstd) (e : Env) (t level : Nat) (a : Arr) : Res (Option (List Nat)) :=
  match compressData c e t level (c.bound (count a.dims * a.item)) (a.data.take (count a.dims * a.item)) with
  | none => .ok none
  | some z =>
    match c.size z with
    | none => .err
    | some _ => .ok (some (header e a z.length ++ z))

/-- One result after the other; the first error ends the call, `src/Compress.cpp:276-278`. -/
def allRes {α β : Type} (f : Nat → α → Res β) : Nat → List α → Res (List β)
  | _, [] => .ok []
  | t, a :: l =>
    match f t a with
    | .err => .err
    | .ub => .ub
    | .ok b =>
      match allRes f (t + 1) l with
      | .err => .err
      | .ub => .ub
      | .ok bs => .ok (b :: bs)

/-- `BuildArrayInfo` with `checkrows`, `src/MultiKey.cpp:144-313`: arrays must have one dimension (arrays which are not contiguous are copied,
214-229); `None` has no rows; all must have the same number of rows. -/
def sameRows (xs : List (Option Arr)) : Bool :=
  xs.all (fun x => match x with | none => true | some a => a.dims.length == 1)
    && xs.all (fun x => (match x with | none => 0 | some a => count a.dims) ==
      (match xs.head? with | some (some a) => count a.dims | _ => 0))

/-- An array of `CompressDecompressArrays`: for `None` its dimensions are read through a null pointer, `src/Compress.cpp:216-219`. -/
def compressItem (c : Zstd) (e : Env) (level : Nat) (t : Nat) (x : Option Arr) : Res (Option (List Nat)) :=
  match x with
  | none => .ub
  | some a => compressOne c e t level a

/-- `CompressDecompressArrays` with mode 0, `src/Compress.cpp:170-330`.  The arrays are compressed by several threads, each into its
own memory; the outcome is that of one after the other. -/
def compressArrays (c : Zstd) (e : Env) (level : Int) (xs : List (Option Arr)) : Res (List (Option (List Nat))) :=
  if sameRows xs then
    if xs.any Option.isNone then .ub else allRes (compressItem c e (levelOf level)) 0 xs
  else .err

/-- The array which a header describes, and the length of its frame, `src/Compress.h:38-50`. -/
def unheader (b : List Nat) : Arr × Nat :=
  ({ dtype := b.getD 2 0, item := unle ((b.drop 4).take 4), flags := unle ((b.drop 8).take 4),
     dims := (List.range (b.getD 3 0)).map (fun i => unle ((b.drop (16 + 8 * i)).take 8)), data := [] },
   unle ((b.drop 40).take 8))

/-- What is done for each array before the threads start, `src/Compress.cpp:230-252`: the header and the start of the frame are read; the array is
allocated as the header says (flags are not used).  Bytes behind the end of the input must not be read.  Simplified: headers with more
than three dimensions or with numbers which are negative as signed numbers are taken as wrong memory accesses, too. -/
def openOne (c : Zstd) (x : Option (List Nat)) : Res (Arr × Nat × List Nat) :=
  match x with
  | none => .ub
  | some b =>
    if b.length < headerLen then .ub
    else
      let (a, frame) := unheader b
      if headerLen + frame > b.length ∨ b.getD 3 0 > 3 ∨ a.dtype ≥ 128 ∨ a.item ≥ 2 ^ 31 then .ub
      else
        let z := (b.drop headerLen).take frame
        match c.size z with
        | none => .err
        | some n => .ok (a, n, z)

/-- `DecompressOneArray`, `src/Compress.cpp:65-108`: as many bytes as the frame holds are written to the memory of the array, which has room for
as many bytes as the header says.  A frame with fewer bytes would leave some of the array unwritten, which is taken as `ub`.  The flags of the
new array are those of any new array, 0 here. -/
def decompressOne (c : Zstd) (p : Arr × Nat × List Nat) : Res Arr :=
  if p.2.1 = 0 then .err
  else if p.2.1 > count p.1.dims * p.1.item then .ub
  else
    match c.decomp p.2.2 with
    | none => .err
    | some l => if l.length ≠ p.2.1 then .err else if l.length < count p.1.dims * p.1.item then .ub else .ok { p.1 with data := l, flags := 0 }

/-- The threads work on all arrays; an exception which one of them sets is seen when the call returns, a wrong write by any of them is a
wrong write of the call, `src/Compress.cpp:254,329-350`. -/
def joinRes {β : Type} : List (Res β) → Res (List β)
  | [] => .ok []
  | .ub :: _ => .ub
  | .err :: l => match joinRes l with | .ub => .ub | _ => .err
  | .ok b :: l => match joinRes l with | .ub => .ub | .err => .err | .ok bs => .ok (b :: bs)

/-- `CompressDecompressArrays` with mode 1, `src/Compress.cpp:228-372`. -/
def decompressArrays (c : Zstd) (xs : List (Option (List Nat))) : Res (List Arr) :=
  match allRes (fun _ => openOne c) 0 xs with
  | .err => .err
  | .ub => .ub
  | .ok ps => joinRes (ps.map (decompressOne c))

/-- `CompressString`, `src/Compress.cpp:379-430`: no bytes are not compressed at all; the memory for the result is returned as it is. -/
def compressString (c : Zstd) (e : Env) (level : Int) (l : List Nat) : Res (List Nat) :=
  if l.length = 0 then .ok (e.bytes (c.bound 0))
  else
    match compressData c e 0 (levelOf level) (c.bound l.length) l with
    | none => .err
    | some z => .ok z

/-- `DecompressString`, `src/Compress.cpp:440-500`. -/
def decompressString (c : Zstd) (z : List Nat) : Res (List Nat) :=
  match c.size z with
  | none => .err
  | some n =>
    if n = 0 then .err
    else
      match c.decomp z with
      | none => .err
      | some l => if l.length ≠ n then .err else .ok l

end Riptide.Compress
