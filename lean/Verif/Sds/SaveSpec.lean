import Verif.Arrays.Info
import Verif.Arrays.NumsSpec
/-! What saving arrays and loading them should do (C153). -/
namespace Riptide.Sds.Save.Spec
open Riptide.Nums
open Riptide.Nums.Info (Arg)
open Riptide.Mask.Call.Spec (inC)

/-- An array which can be saved: of a type numpy had before it had dates, but not of objects, in the order of bytes of the machine, with one to five
dimensions and any distances, and all its bytes are there; and if it has one item only, then at the distance of packed items. -/
structure Fit (a : Arr) (m : Mem) : Prop where
  type : a.type ≤ 20
  noObject : a.type ≠ 17
  native : a.swapped = false
  some : 1 ≤ a.lay.dims.length
  few : a.lay.dims.length ≤ 5
  strides : a.lay.strides.length = a.lay.dims.length
  single : a.lay.dims = [1] → a.lay.strides = [(a.lay.item : Int)]
  item : a.lay.item < 2 ^ 31
  size : a.lay.len * a.lay.item < 2 ^ 63
  dims : ∀ d ∈ a.lay.dims, d < 2 ^ 63
  dists : ∀ s ∈ a.lay.strides, -2 ^ 63 ≤ s ∧ s < 2 ^ 63
  there : ∀ o ∈ inC a.lay.dims a.lay.strides, ∀ j : Nat, j < a.lay.item → (m (o + j)).isSome = true

/-- `None`, or an array which can be saved. -/
def Savable : Arg → Prop
  | .pyNone => True
  | .other => False
  | .array a m => Fit a m

/-- The number of bytes of an item of the list. -/
def size : Arg → Nat
  | .array a _ => a.lay.len * a.lay.item
  | _ => 0

/-- The same type; `long` comes back as `int` or `long long`, whichever has its size. -/
def SameType (t item u : Nat) : Prop :=
  u = (if t = 7 then if item = 4 then 5 else 9 else if t = 8 then if item = 4 then 6 else 10 else t)

/-- What was loaded is what was saved: the same shape and type, and the same items at the same places. -/
def Back : Arg → Option (Arr × Mem) → Prop
  | .pyNone, r => r = none
  | .other, _ => False
  | .array a m, r => ∃ b mb, r = some (b, mb) ∧ SameType a.type a.lay.item b.type ∧ b.lay.dims = a.lay.dims ∧ b.lay.item = a.lay.item ∧
      b.swapped = false ∧ ∀ vs, Bits a.lay.item a m vs → Bits a.lay.item b mb vs

/-- All of them in their order. -/
def AllBack : List Arg → List (Option (Arr × Mem)) → Prop
  | [], [] => True
  | x :: l, y :: r => Back x y ∧ AllBack l r
  | _, _ => False

end Riptide.Sds.Save.Spec
