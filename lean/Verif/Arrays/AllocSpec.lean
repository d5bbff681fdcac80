import Verif.Arrays.Alloc
/-! What an array is to be: every item has its own place within the memory. -/
namespace Riptide.Alloc

/-- The first byte of a row. -/
def Arr.at (a : Arr) (i : Nat) : Int := i * a.stride

/-- Every item lies within the memory, and no two items share a byte. -/
structure Arr.Sound (a : Arr) : Prop where
  inside : ∀ i, i < a.rows → 0 ≤ a.at i ∧ a.at i + a.width ≤ a.bytes
  apart : ∀ i j, i < a.rows → j < a.rows → i < j → a.at i + a.width ≤ a.at j ∨ a.at j + a.width ≤ a.at i

end Riptide.Alloc
