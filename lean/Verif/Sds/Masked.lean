import Verif.Sds.Block
/-! # Model of files which are read with a mask, `src/SDSFile.cpp` and `src/SDSFilePython.cpp`

The arrays of the files have been found (C109, C137) and are in C order.  Reading of a share is in C126, stacking in C118. -/
namespace Riptide.Sds.Masked
open Riptide.Sds

/-- An array in a file: its block and its flags, `pArrayEnums`, which are 0 in a file without names, `src/SDSFile.cpp:3520-3521`. -/
structure Entry where
  blk : Blk
  flags : Nat
  deriving DecidableEq, Repr

/-- A file: its bytes, its `FileType` and its arrays. -/
structure MFile where
  bytes : List Nat
  fileType : Nat
  entries : List Entry
  deriving DecidableEq, Repr

/-- The argument `mask`: an array of bools, as the memory in which it is, where it starts, its stride and its length; or anything else. -/
inductive MaskArg where
  | other
  | bools (mem : List Bool) (pos : Nat) (stride : Int) (n : Nat)
  deriving DecidableEq, Repr

/-- `GetFilters`, `src/SDSFilePython.cpp:1600-1642`, and the uses of `pBoolMask`: the stride is not looked at, and what is no array of bools is
left out.  The outer `none` is a read outside of the memory. -/
def MaskArg.seen : MaskArg → Option (Option (List Bool))
  | .other => some none
  | .bools mem pos _ n => if pos + n ≤ mem.length then some (some ((mem.drop pos).take n)) else none

/-- `fileTypeStackable`, `src/SDSFile.cpp:3608-3610,4288-4290`: datasets, tables and arrays, `src/SDSFile.h:100-105`. -/
def stackable (t : Nat) : Bool := t == 2 || t == 3 || t == 4

/-- The tests of `PossiblyShrinkArray`, `src/SDSFile.cpp:3366-3376`: no scalar, no metadata, not nested, and of the original container. -/
def filtered (t flags : Nat) : Bool := flags &&& 28 == 0 && flags &&& 1 != 0 && stackable t

/-- A new array: nothing is made without dimensions, `src/SDSFilePython.cpp:1541-1542`; bytes which are not written are not known. -/
inductive Made where
  | absent
  | made (dims : List Nat) (mem : List (Option Nat))
  deriving DecidableEq, Repr

/-- Bytes which are written from the start of an array of `n` bytes; `none` is a write outside of it. -/
def place (dims : List Nat) (n : Nat) (l : List Nat) : Option Made :=
  if l.length ≤ n then some (.made dims (l.map some ++ List.replicate (n - l.length) none)) else none

/-- All of an array: a failed read is not told, `src/SDSFile.cpp:2537-2542`. -/
def whole (c : Codec) (f : List Nat) (b : Blk) : Option Made :=
  if b.dims = [] then some .absent else place b.dims (prod b.dims * b.item) ((readArr c f b).getD [])

/-- One array of one file, `AllocateOneArray` and `DecompressFileArray`, `src/SDSFile.cpp:3496-3571,2477-2550`.  `none` is undefined behaviour;
a failed read of an array with a mask is taken as such here. -/
def entryOne (c : Codec) (f : MFile) (mask : Option (List Bool)) (e : Entry) : Option Made :=
  match mask with
  | none => whole c f.bytes e.blk
  | some m =>
    if filtered f.fileType e.flags then
      if e.blk.dims = [] then some .absent
      else match readMasked c f.bytes e.blk m with
        | (some l, n) => place (n :: e.blk.dims.tail) (n * prod e.blk.dims.tail * e.blk.item) l
        | (none, _) => none
    else whole c f.bytes e.blk

/-- `DecompressFile` with a mask and without a share, `src/SDSFile.cpp:4217-4345`: the length of the mask is not looked at. -/
def readOne (c : Codec) (f : MFile) (mask : MaskArg) : Option (List Made) :=
  match mask.seen with
  | none => none
  | some m => f.entries.mapM (entryOne c f m)

/-- `Dimensions[0]` of a block, which is 0 without dimensions, `src/SDSFile.cpp:2726-2735`. -/
def Entry.rows (e : Entry) : Nat := e.blk.dims.headD 0

/-- The test of the length of the mask, `src/SDSFile.cpp:6370-6384`; `fancy` is `IsFancy`, which need not be given. -/
def accepted (fancy : Option Bool) (m : List Bool) (f : MFile) : Bool :=
  match fancy, f.entries with
  | some k, e :: _ => !(decide (e.rows < m.length) || (!k && decide (e.rows ≠ m.length)))
  | _, _ => true

/-- `BoolMaskTrueCount` while the arrays of a file are made, `src/SDSFile.cpp:6413-6425`; `SumBooleanMask` counts (C05). -/
def counted (fancy : Option Bool) (m : List Bool) (f : MFile) : Nat :=
  match f.entries with
  | [] => m.count true
  | e :: _ => if fancy = some false then m.count true else (m.take (if e.rows > m.length then m.length else e.rows)).count true

/-- One array of several files, `AllocMultiArrays` and `DecompressMultiArray`, `src/SDSFile.cpp:3576-3615,5873-6055`: the array is made with the
count of the file and read with that of all the mask, 6434; without bytes in a row nothing is read, 5970-5971. -/
def entryMany (c : Codec) (f : MFile) (mask : Option (List Bool × Nat)) (e : Entry) : Option Made :=
  match mask with
  | none => if rowBytes e.blk.dims e.blk.item = 0 ∧ e.blk.dims ≠ [] then place e.blk.dims (prod e.blk.dims * e.blk.item) [] else whole c f.bytes e.blk
  | some (m, k) =>
    if filtered f.fileType e.flags then
      match shrink e.blk ⟨m, k⟩ with
      | b => if b.dims = [] then some .absent
        else if rowBytes b.dims b.item = 0 then place b.dims (prod b.dims * b.item) []
        else match readArrRows c f.bytes b ⟨m, m.count true⟩ 0 with
          | some l => place b.dims (prod b.dims * b.item) l
          | none => none
    else if rowBytes e.blk.dims e.blk.item = 0 ∧ e.blk.dims ≠ [] then place e.blk.dims (prod e.blk.dims * e.blk.item) []
    else whole c f.bytes e.blk

/-- The outcome of a call with several files. -/
inductive Reply where
  | error
  | undefined
  | tables (l : List (List Made))
  deriving DecidableEq, Repr

/-- `MultiDecompressFiles` for files which are all there and have no sections, `src/SDSFile.cpp:6357-6451`. -/
def readMany (c : Codec) (fs : List MFile) (mask : MaskArg) (fancy : Option Bool) : Reply :=
  match mask.seen with
  | none => .undefined
  | some none =>
    match fs.mapM fun f => f.entries.mapM (entryMany c f none) with
    | some l => .tables l
    | none => .undefined
  | some (some m) =>
    if fs.all (accepted fancy m) then
      match fs.mapM fun f => f.entries.mapM (entryMany c f (some (m, counted fancy m f))) with
      | some l => .tables l
      | none => .undefined
    else .error

end Riptide.Sds.Masked
