import Verif.Heap.Model
/-! What the heap should keep (C30). -/
namespace Riptide.Heap.Spec

/-- Every stored element is at least as extreme as its two children. -/
def HeapOrder (key : Nat → Int) (es : List Nat) : Prop :=
  ∀ (i c x y : Nat), (c = 2 * i + 1 ∨ c = 2 * i + 2) → es[i]? = some x → es[c]? = some y → key y ≤ key x

/-- The recorded positions are exactly the actual ones. -/
def Positions (h : HS) : Prop := ∀ (x i : Nat), h.pos x = some i ↔ h.es[i]? = some x

/-- `x` is an extreme element of `es`. -/
def Extreme (key : Nat → Int) (es : List Nat) (x : Nat) : Prop := x ∈ es ∧ ∀ y ∈ es, key y ≤ key x

/-- A client never pushes an element that is stored. -/
def Proper (max : Nat) : HK → List Op → Prop
  | _, [] => True
  | s, op :: ops => (∀ x, op = .push x → x ∉ s.h.es) ∧ ∀ s', step max s op = some s' → Proper max s' ops

end Riptide.Heap.Spec
