import Verif.Arrays.AssignCall
import Verif.Arrays.StackCallSpec
/-! What assignments through a mask should do to memory (C158). -/
namespace Riptide.Nums.Assign.Spec
open Riptide.Nums Riptide.Binary
open Riptide.Mask.Call.Spec (inC)
open Riptide.Convert.Call (Wide)
open Riptide.Convert.Call.Spec (whole real size)
open Riptide.Nums.Stack.Spec (HasVal Carried Able)

/-- Where the items of an array are, in the order in which numpy lists them. -/
def places (a : View) : List Int := (inC a.lay.dims a.lay.strides).map fun o => a.base + o

/-- The bytes from `o` on. -/
def bytes (M : Mem) (o : Int) (n : Nat) : List (Option (BitVec 8)) := (List.range n).map fun (q : Nat) => M (o + q)

/-- What a mask says. -/
def truth (M : Mem) (a : View) : List Bool := (places a).map fun p => decide (M p ≠ some 0#8)

/-- The bytes of an item in the order of the other array. -/
def ordered (a b : View) (l : List (Option (BitVec 8))) : List (Option (BitVec 8)) := if a.swapped = b.swapped then l else l.reverse

/-- `arr[mask] = vals`: the values go one by one to the rows which are masked, or a single value goes to all of them, and nothing else is changed. -/
structure Assigned (M : Mem) (arr mask vals : View) (M' : Mem) : Prop where
  writable : arr.writable = true
  units : arr.unit = vals.unit
  number : vals.lay.len = (truth M mask).count true ∨ vals.lay.len = 1
  row : ∀ (j : Nat) p, (places arr)[j]? = some p → (truth M mask)[j]? = some true → ∃ q,
    (places vals)[if vals.lay.len = 1 then 0 else ((truth M mask).take j).count true]? = some q ∧
    bytes M' p arr.lay.item = ordered arr vals (bytes M q arr.lay.item)
  kept : ∀ (j : Nat) p, (places arr)[j]? = some p → (truth M mask)[j]? = some false → bytes M' p arr.lay.item = bytes M p arr.lay.item
  rest : ∀ o, (∀ p ∈ places arr, o < p ∨ p + arr.lay.item ≤ o) → M' o = M o

/-- The value in the other type; NaN is NaN in each float type. -/
inductive Put (w : Wide) (ti to : Nat) (x y : Int) : Prop
  | carried : Carried w ti to x y → Put w ti to x y
  | nan {f g : FT} : real ti = some f → real to = some g → f.isNan x.toNat = true → g.isNan y.toNat = true → Put w ti to x y

/-- `arr[mask] = vals[mask]`: the rows which are masked get the values of the same rows, and nothing else is changed. -/
structure Replaced (w : Wide) (M : Mem) (arr mask vals : View) (M' : Mem) : Prop where
  writable : arr.writable = true
  row : ∀ (j : Nat) p q x, (places arr)[j]? = some p → (places vals)[j]? = some q → (truth M mask)[j]? = some true → HasVal vals.type vals.swapped M q x →
    ∃ y, HasBits (size arr.type) arr.swapped M' p (y % 2 ^ (8 * size arr.type)).toNat ∧ Put w vals.type arr.type x y
  kept : ∀ (j : Nat) p, (places arr)[j]? = some p → (truth M mask)[j]? = some false → bytes M' p arr.lay.item = bytes M p arr.lay.item
  rest : ∀ o, (∀ p ∈ places arr, o < p ∨ p + arr.lay.item ≤ o) → M' o = M o

/-- The items lie one after the other in C order, and all of their bytes are there. -/
structure Packed (M : Mem) (a : View) : Prop where
  shape : a.lay.strides.length = a.lay.dims.length
  even : Riptide.Mask.Call.Spec.Even a.lay.item (inC a.lay.dims a.lay.strides)
  there : ∀ p, a.base ≤ p → p < a.base + ((a.lay.item * a.lay.len : Nat) : Int) → (M p).isSome = true

/-- The bytes of two packed arrays are apart. -/
def Away (a b : View) : Prop :=
  a.base + ((a.lay.item * a.lay.len : Nat) : Int) ≤ b.base ∨ b.base + ((b.lay.item * b.lay.len : Nat) : Int) ≤ a.base

/-- Three arrays in memory for which an assignment is well defined: packed, as many flags as rows, and what is read is not written. -/
structure Trio (M : Mem) (arr mask vals : View) : Prop where
  packedArr : Packed M arr
  packedMask : Packed M mask
  packedVals : Packed M vals
  byte : mask.lay.item = 1
  rows : arr.lay.len = mask.lay.len
  awayMask : Away arr mask
  awayVals : Away arr vals

/-- For this value `PutMask` is right: a boolean is not false, a float is NaN or a number of the integer type, and of two float types the machine converts it. -/
def Fine (w : Wide) (ti to : Nat) (x : Int) : Prop :=
  ti = to ∨ ti ≤ 12 ∧ to ≤ 12 ∧ (ti = 0 → x = 1) ∧
    (∀ f d, real ti = some f → whole to = some d → f.isNan x.toNat = true ∨ f.isFinite x.toNat = true ∧ d.InRange (f.trunc x.toNat)) ∧
    (∀ f g, real ti = some f → real to = some g → (w.conv .f32 .f64 x).isSome = true ∧ (w.conv .f64 .f32 x).isSome = true)

end Riptide.Nums.Assign.Spec
