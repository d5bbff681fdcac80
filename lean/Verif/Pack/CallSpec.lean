import Verif.Pack.Spec
import Verif.Arrays.NumsSpec
/-! Arrays of keys (C145). -/
namespace Riptide.Pack.Call.Spec
open Riptide.Nums

/-- Keys of one of the signed types of integers, in C order and in the order of bytes of the machine. -/
structure Keys (a : Arr) (t : IT) (m : Mem) (keys : List Int) : Prop where
  type : (a.type = 1 ∧ t = .i8) ∨ (a.type = 3 ∧ t = .i16) ∨ (a.type = 5 ∧ t = .i32) ∨ ((a.type = 7 ∨ a.type = 9) ∧ t = .i64)
  item : a.lay.item = t.bits / 8
  plain : Plain a
  vals : Ints t a m keys

/-- Memory is given for a request of `bytes` and the sixteen bytes of the guard. -/
def Gives (room : Nat → Bool) (bytes : Nat) : Prop := bytes + 16 < 2 ^ 64 ∧ room (bytes + 16) = true

instance (room : Nat → Bool) (b : Nat) : Decidable (Gives room b) := inferInstanceAs (Decidable (_ ∧ _))

end Riptide.Pack.Call.Spec
