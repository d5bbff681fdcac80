import Verif.Sds.Share
/-! # What tables in shared memory must be -/
namespace Riptide.Sds

/-- How far an item of an array is from its first one. -/
def spot : List Int → List Nat → Int
  | s :: ss, i :: is => s * i + spot ss is
  | _, _ => 0

/-- An index of an array. -/
def Index : List Nat → List Nat → Prop
  | [], [] => True
  | d :: ds, i :: is => i < d ∧ Index ds is
  | _, _ => False

/-- The bytes of an item of an array which begins at `base` in some memory; `none` are bytes outside of the memory. -/
def itemAt (mem : List Nat) (base : Nat) (strides : List Int) (item : Nat) (idx : List Nat) : Option (List Nat) :=
  let p := (base : Int) + spot strides idx
  if 0 ≤ p ∧ p.toNat + item ≤ mem.length then some ((mem.drop p.toNat).take item) else none

/-- All items of an array are in as many bytes as they need, from the first item on: there are no gaps, and no negative strides. -/
def Packed (dims : List Nat) (strides : List Int) (item : Nat) : Prop :=
  ∀ idx, Index dims idx → 0 ≤ spot strides idx ∧ spot strides idx + item ≤ (dims.foldr (· * ·) 1 * item : Nat)

/-- The strides of an array in the order of C. -/
def cStrides (item : Nat) : List Nat → List Int
  | [] => []
  | _ :: ds => ((ds.foldr (· * ·) 1 * item : Nat) : Int) :: cStrides item ds

/-- The strides of an array in the order of Fortran. -/
def fStrides : Nat → List Nat → List Int
  | _, [] => []
  | item, d :: ds => (item : Int) :: fStrides (item * d) ds

/-- The number of the same type which does not depend on the system: `long` is `int` or `long long`. -/
def plainType (dtype item : Nat) : Nat :=
  match dtype, item with
  | 7, 4 => 5
  | 7, _ => 9
  | 8, 4 => 6
  | 8, _ => 10
  | d, _ => d

/-- An array which can be kept in a share. -/
structure Src.Ok (a : Src) : Prop where
  some_dims : a.dims ≠ []
  few_dims : a.dims.length ≤ 5
  strides : a.strides.length = a.dims.length
  packed : Packed a.dims a.strides a.item
  inside : a.base + a.dims.foldr (· * ·) 1 * a.item ≤ a.mem.length
  width : 0 < a.item ∨ a.dtype ≠ 18
  item : a.item < 2 ^ 32
  dtype : a.dtype < 2 ^ 8
  flags : a.flags < 2 ^ 32
  dimRoom : ∀ d ∈ a.dims, d < 2 ^ 64
  strideRoom : ∀ s ∈ a.strides, -(2 ^ 63 : Int) ≤ s ∧ s < 2 ^ 63

/-- Bytes which are kept in whole units of 512. -/
def units (n : Nat) : Nat := (n + 511) / 512

/-- How many units of 512 bytes a table needs. -/
def Table.units (t : Table) : Nat :=
  1 + Sds.units t.names.length + Sds.units t.metaData.length + Sds.units (128 * t.arrays.length) +
    (t.arrays.map fun a => Sds.units (a.dims.foldr (· * ·) 1 * a.item)).sum

/-- A table whose numbers have room in the header. -/
structure Table.Ok (t : Table) : Prop where
  arrays : ∀ a ∈ t.arrays, a.Ok
  nameCount : t.nameCount < 2 ^ 64
  metaRoom : t.metaData.length < 2 ^ 32
  fileType : t.fileType < 2 ^ 16
  author : t.author < 2 ^ 32
  bandSize : t.bandSize < 2 ^ 64
  total : 512 * t.units < 2 ^ 64

/-- A view of a share shows an array: it has its shape and its type, and all its items, at its own place. -/
structure Shows (v : View) (mem : List Nat) (a : Src) : Prop where
  dims : v.dims = a.dims
  item : v.item = a.item
  dtype : v.dtype = plainType a.dtype a.item
  flags : v.flags = a.flags
  items : ∀ idx, Index a.dims idx → ∃ l, itemAt a.mem a.base a.strides a.item idx = some l ∧ itemAt mem v.off v.strides v.item idx = some l

end Riptide.Sds
