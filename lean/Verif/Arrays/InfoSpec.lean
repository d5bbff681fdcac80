import Verif.Arrays.Info
import Verif.Arrays.NumsSpec
/-! What a call should know of its arrays (C147). -/
namespace Riptide.Nums.Info
open Riptide.Nums

/-- An array of one dimension with `n` items of a type numpy had before it had dates. A slice of one item is excepted unless its distance is the size
of an item. -/
def OneDim (a : Arr) (n : Nat) : Prop :=
  a.type ≤ 20 ∧ a.lay.dims = [n] ∧ ∃ s, a.lay.strides = [s] ∧ (n = 1 → s = a.lay.item)

/-- `None` for no rows, or an array of one dimension. -/
def Row (n : Nat) : Arg → Prop
  | .pyNone => n = 0
  | .other => False
  | .array a _ => OneDim a n

/-- The entry describes the item: it has the type and the size of the array, and its items one after the other. -/
def Describes (n : Nat) : Arg → Entry → Prop
  | .pyNone, e => e.there = false ∧ e.len = 0
  | .other, _ => False
  | .array a m, e => e.there = true ∧ e.type = a.type ∧ e.item = a.lay.item ∧ e.ndim = 1 ∧ e.len = n ∧
      ∀ vs, Bits a.lay.item a m vs → vs.length = n ∧ ∀ (k b : Nat), vs[k]? = some b → HasBits a.lay.item a.swapped e.data ((k * a.lay.item : Nat) : Int) b

/-- The size of an item of what is passed. -/
def sizeOf : Arg → Nat
  | .array a _ => a.lay.item
  | _ => 0

end Riptide.Nums.Info
