import Verif.Window.Spec
import Verif.Window.Call
/-! What the call `TimeWindow` should answer: for every row the sum or the product of the values in its window. -/
namespace Riptide.Window.Call.Spec
open Riptide.Window

/-- The values of the rows in the window of row `i`, latest first. -/
def window {α : Type} (vs : List α) (ts : List Int) (delta : Int) (i : Nat) : List α :=
  (windowRows (fun j => ts.getD j 0) delta i).filterMap fun j => vs[j]?

/-- The sum or the product of all. -/
def total : Fn → List Int → Int
  | .sum, l => l.sum
  | .prod, l => l.foldr (· * ·) 1

/-- The number by which a function is asked for. -/
def code : Fn → Int
  | .sum => 0
  | .prod => 1

/-- The type of the values; booleans are the bytes 0 and 1. -/
def inType : Nat → Option IT
  | 0 => some .i8
  | 1 => some .i8
  | 2 => some .u8
  | 3 => some .i16
  | 4 => some .u16
  | 5 => some .i32
  | 6 => some .u32
  | 7 => some .i64
  | 8 => some .u64
  | 9 => some .i64
  | 10 => some .u64
  | _ => none

/-- The number of bytes of the floats. -/
def floatBytes : Nat → Option Nat
  | 11 => some 4
  | 12 => some 8
  | 13 => some 16
  | _ => none

/-- Added up from the latest on, all results fit 64 bits with a sign. -/
def Fits (f : Fn) (l : List Int) : Prop := ∀ k : Nat, k < l.length → IT.i64.InRange (total f (l.take (k + 1)))

/-- The times do not fall, and the last is less than 2^63 behind the first. -/
def Times (ts : List Int) : Prop := ts.Pairwise (· ≤ ·) ∧ ∀ x ∈ ts, ∀ y ∈ ts, y - x < 2 ^ 63

/-- One after the other, the first as it is. -/
def chain {α : Type} (op : α → α → α) : List α → Option α
  | [] => none
  | x :: l => some (l.foldl op x)

instance (f : Fn) (l : List Int) : Decidable (Fits f l) := inferInstanceAs (Decidable (∀ k : Nat, k < l.length → _))
instance (ts : List Int) : Decidable (Times ts) := inferInstanceAs (Decidable (_ ∧ _))

end Riptide.Window.Call.Spec
