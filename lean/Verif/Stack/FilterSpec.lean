import Verif.Stack.ColumnSpec
/-! # What is asked of a stacked column with a filter -/
namespace Riptide.Stack

/-- The rows of `m`, of `w` bytes each, at which the mask is set. -/
def selected (w : Nat) (mask : List Bool) (n : Nat) (m : List Nat) : List Nat :=
  ((List.range n).filter (fun i => mask.getD i false)).flatMap (fun i => (m.drop (i * w)).take w)

/-- How many of the first `n` items of the mask are set. -/
def set (mask : List Bool) (n : Nat) : Nat := ((List.range n).filter (fun i => mask.getD i false)).length

end Riptide.Stack
