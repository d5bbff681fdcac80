import Verif.Module.Call
import Verif.Recycle.CallSpec
/-! # What is expected of small calls of the module -/
namespace Riptide.ModuleCall


/-- Numpy can make such an array: it knows the type, the dimension is not negative, and items of any size have at least one byte. -/
structure Possible (E : Env) (t n i : Int) : Prop where
  known : E.known t = true
  dim : 0 ≤ n
  item : 18 ≤ t ∧ t ≤ 20 → i = 0 ∨ (0 < i ∧ i < 2147483648)

/-- The bytes of a piece of memory. -/
def Shares (a m b n : Nat) : Prop := ∃ x, a ≤ x ∧ x < a + m ∧ b ≤ x ∧ x < b + n

/-- The first class without a finalizer in calls with two arguments. -/
def firstPlain (final : Nat → Bool) (l : List TArgs) : Option Nat :=
  l.findSome? fun a => match a with
    | .two t => if final t then none else some t
    | .other => none

end Riptide.ModuleCall
