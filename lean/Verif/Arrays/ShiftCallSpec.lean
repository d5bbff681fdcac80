import Verif.Arrays.ShiftCall
import Verif.Mask.CallSpec
/-! # What shifting the rows of arrays should do -/
namespace Riptide.Nums.Shift.Spec
open Riptide.Nums Riptide.Binary
open Riptide.Mask.Call.Spec (inC)

/-- Row `i` of the array (all items whose first index is `i`) has afterwards what row `i + k` had, or, if there is no such row, what it had. -/
def RowsMoved (l : Lay) (base k : Int) (M M' : Mem) : Prop :=
  match l.dims, l.strides with
  | n :: ds, s :: ss => ∀ i : Nat, i < n → ∀ o ∈ inC ds ss, ∀ b : Nat, b < l.item →
      M' (base + i * s + o + b) = if 0 ≤ i + k ∧ i + k < n then M (base + (i + k) * s + o + b) else M (base + i * s + o + b)
  | _, _ => False

/-- The same of the items of the array in the order in which they are in memory. -/
def ItemsMoved (l : Lay) (base k : Int) (M M' : Mem) : Prop := ∀ i : Nat, i < l.len → ∀ b : Nat, b < l.item →
  M' (base + i * l.item + b) = if 0 ≤ i + k ∧ i + k < l.len then M (base + (i + k) * l.item + b) else M (base + i * l.item + b)

/-- A byte of a contiguous array. -/
def Inside (l : Lay) (base p : Int) : Prop := base ≤ p ∧ p < base + ((l.len * l.item : Nat) : Int)

/-- All bytes of a contiguous array are there. -/
def There (M : Mem) (l : Lay) (base : Int) : Prop := ∀ p, Inside l base p → (M p).isSome = true

/-- An array whose rows can be moved: of one dimension, without gaps, or of two, in Fortran order with two rows or more. -/
inductive Rows (a : Arr) : Prop
  | one (n : Nat) : a.lay.dims = [n] → a.lay.strides = [(a.lay.item : Int)] → Rows a
  | two (n c : Nat) : 2 ≤ n → 0 < a.lay.item → a.lay.dims = [n, c] → a.lay.strides = [(a.lay.item : Int), ((n * a.lay.item : Nat) : Int)] → Rows a

/-- The numbers of the shift are small enough for 64 bits. -/
def Small (l : Lay) (k : Int) : Prop := l.dims.headD 0 + k.natAbs < 2 ^ 63 ∧ k.natAbs * l.item < 2 ^ 63

/-- The items of the list which are arrays lie in different places. -/
def Separate (l : List Item) : Prop := l.Pairwise fun x y => ∀ a b s t, x = .array a s → y = .array b t → ∀ p, Inside a.lay s p → ¬ Inside b.lay t p

end Riptide.Nums.Shift.Spec
