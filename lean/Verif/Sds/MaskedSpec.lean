import Verif.Sds.BlockProps
import Verif.Sds.Masked
/-! # What reading with a mask should answer -/
namespace Riptide.Sds.Masked
open Riptide.Sds

/-- An array which was written, with its flags. -/
structure Source where
  arr : Arr
  flags : Nat
  deriving DecidableEq, Repr

/-- The entry is the array, as it was written somewhere in the file.  The arrays which are not read back (C108) are left out. -/
def Wrote (c : Codec) (bytes : List Nat) (e : Entry) (s : Source) : Prop :=
  e.flags = s.flags ∧ s.arr.Ok ∧ ∃ zstd bs off, e.blk = (writeArr c zstd bs s.arr off).1 ∧ HasAt bytes off (writeArr c zstd bs s.arr off).2 ∧
    ¬(0 < e.blk.bandCount ∧ e.blk.cSize = e.blk.uSize)

/-- The file has these arrays. -/
inductive Wrotes (c : Codec) (bytes : List Nat) : List Entry → List Source → Prop
  | nil : Wrotes c bytes [] []
  | cons {e s es ss} : Wrote c bytes e s → Wrotes c bytes es ss → Wrotes c bytes (e :: es) (s :: ss)

/-- The array is a column of a dataset, a table or an array: it is of the original container, not nested, and neither a scalar nor metadata. -/
def Column (t : Nat) (flags : Nat) : Prop :=
  (t = 2 ∨ t = 3 ∨ t = 4) ∧ flags.testBit 0 = true ∧ flags.testBit 2 = false ∧ flags.testBit 3 = false ∧ flags.testBit 4 = false

instance (t flags : Nat) : Decidable (Column t flags) := by unfold Column; exact inferInstance

/-- The elements of the mask. -/
def MaskArg.Means : MaskArg → List Bool → Prop
  | .other, _ => False
  | .bools mem pos stride n, l => l.length = n ∧ ∀ i : Nat, i < n → 0 ≤ (pos : Int) + i * stride ∧ mem[((pos : Int) + i * stride).toNat]? = l[i]?

/-- All of an array. -/
def allOf (a : Arr) : Made := if a.dims = [] then .absent else .made a.dims (a.data.map some)

/-- The rows of an array at which the mask is set. -/
def rowsOf (m : List Bool) (a : Arr) : Made :=
  match a.dims with
  | [] => .absent
  | d :: ds => .made ((m.take d).count true :: ds) ((pickRows (prod ds * a.item) (fun i => m.getD i false) d a.data).map some)

/-- What is wanted of an array. -/
def wanted (t : Nat) (m : List Bool) (s : Source) : Made := if Column t s.flags then rowsOf m s.arr else allOf s.arr

/-- The files have these arrays. -/
inductive AllWrote (c : Codec) : List MFile → List (List Source) → Prop
  | nil : AllWrote c [] []
  | cons {f ss fs sss} : Wrotes c f.bytes f.entries ss → AllWrote c fs sss → AllWrote c (f :: fs) (ss :: sss)

/-- All columns of a file have as many rows as its first array. -/
def Uniform (t : Nat) (ss : List Source) : Prop :=
  ∀ s ∈ ss, Column t s.flags → s.arr.dims ≠ [] → s.arr.dims.headD 0 = (ss.headD s).arr.dims.headD 0

/-- The files of a list with their arrays. -/
inductive UniformAll : List MFile → List (List Source) → Prop
  | nil : UniformAll [] []
  | cons {f ss fs sss} : Uniform f.fileType ss → UniformAll fs sss → UniformAll (f :: fs) (ss :: sss)

/-- What is wanted of the files. -/
def wantedAll (m : List Bool) : List MFile → List (List Source) → List (List Made)
  | f :: fs, ss :: sss => ss.map (wanted f.fileType m) :: wantedAll m fs sss
  | _, _ => []

/-- The number of rows of the first array of a file, if there is one. -/
def firstRows : List Source → Option Nat
  | [] => none
  | s :: _ => some (s.arr.dims.headD 0)

/-- A mask of `n` elements may be used for the files: without `fancy` always; else it is not longer than the first array of any file, and as long
if `fancy` is false. -/
def Allowed (fancy : Option Bool) (n : Nat) (sss : List (List Source)) : Prop :=
  ∀ k, fancy = some k → ∀ ss ∈ sss, ∀ r, firstRows ss = some r → if k then n ≤ r else n = r

end Riptide.Sds.Masked
