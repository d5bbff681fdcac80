import Verif.Sds.ShareFile
import Verif.Sds.ShareSpec
/-! # What reading of files through shares must be -/
namespace Riptide.Sds

/-- What is returned of a share holds what was written to a file: the names, the metadata, and of every array its shape, its type and its
bytes. -/
structure Holds (o : ShareOut) (x : Input) : Prop where
  fileType : o.fileType = x.fileType
  names : o.names = x.names
  nameCount : o.nameCount = x.nameCount
  metaData : o.metaData = x.metaData
  count : o.views.length = x.arrays.length
  dims : o.views.map View.dims = x.arrays.map fun a => a.arr.dims
  items : o.views.map View.item = x.arrays.map fun a => a.arr.item
  types : o.views.map View.dtype = x.arrays.map fun a => plainType a.dtype a.arr.item
  flags : o.views.map View.flags = x.arrays.map fun a => a.flags
  strides : (o.views.map fun v => v.strides.map fun s => (s % 2 ^ 64).toNat) = x.arrays.map fun a => a.strides
  bytes : ∀ (i : Nat) (h1 : i < o.views.length) (h2 : i < x.arrays.length),
    o.views[i].off + x.arrays[i].arr.data.length ≤ o.mem.length ∧
    (o.mem.drop o.views[i].off).take x.arrays[i].arr.data.length = x.arrays[i].arr.data

/-- The number of units of 512 bytes which a share of an input needs. -/
def Input.shareUnits (x : Input) : Nat :=
  1 + units x.names.length + units x.metaData.length + units (128 * x.arrays.length) + (x.arrays.map fun a => units a.arr.data.length).sum

/-- A path in a directory. -/
def inDir (dir file : List Nat) : List Nat := dir ++ 47 :: file

/-- A name without separators. -/
def Plain (l : List Nat) : Prop := ∀ ch ∈ l, ch ≠ 92 ∧ ch ≠ 58 ∧ ch ≠ 47

end Riptide.Sds
