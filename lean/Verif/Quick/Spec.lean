import Verif.Common.Num
/-! # What sorting in place should do -/
namespace Riptide.Quick.Spec

/-- The order of floats in a sorted array: numbers by value, NaNs at the end. -/
def FloatLe (f : FT) (x y : Nat) : Prop :=
  f.isNan y = true ∨ (f.isNan x = false ∧ f.key x ≤ f.key y)

/-- The `n` elements of a view: every `stride`th element of memory from `off` on. -/
def view {α : Type} (mem : List α) (off stride n : Nat) : List α :=
  (List.range n).filterMap fun i => mem[off + i * stride]?

/-- The items of `w` bytes in a buffer. -/
def items (w n : Nat) (bytes : List Nat) : List (List Nat) :=
  (List.range n).map fun i => (bytes.drop (i * w)).take w

end Riptide.Quick.Spec
