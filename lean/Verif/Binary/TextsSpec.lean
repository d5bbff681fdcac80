import Verif.Binary.Texts
/-! # What the addition of texts should give -/
namespace Riptide.Binary.Texts.Spec
open Riptide.Binary.Texts

/-- The text of an item of C: up to the first zero. -/
def IsText (l t : List Nat) : Prop := 0 ∉ t ∧ (l = t ∨ ∃ r, l = t ++ 0 :: r)

/-- The text numpy sees in an item: without the zeros at its end. -/
def IsNumpyText (l t : List Nat) : Prop := t.getLast? ≠ some 0 ∧ ∃ n, l = t ++ List.replicate n 0

/-- The item of an array. -/
def Slot (mem : List Nat) (w i : Nat) : List Nat := (mem.drop (w * i)).take w

end Riptide.Binary.Texts.Spec
