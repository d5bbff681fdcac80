import Verif.Module.Table
/-! # What the table of methods and the settings should do -/
namespace Riptide.Table.Spec
open Riptide.Table
open Riptide.Recycle.Call (Arg)

/-- A number which fits into 64 bits. -/
def Fits (n : Int) : Prop := -(2 ^ 63) ≤ n ∧ n < 2 ^ 63

instance (n : Int) : Decidable (Fits n) := inferInstanceAs (Decidable (_ ∧ _))

/-- The names of the table. -/
def Named (name : String) : Prop := ∃ e ∈ methods, e.name = name

/-- The names which run something else: on purpose, and by mistake. -/
def Others : List String := ["IsMember64", "ApplyRows"]

/-- A text without its first zero and what follows: the longest start without a zero. -/
def IsCut (b c : List Nat) : Prop := 0 ∉ c ∧ (b = c ∨ ∃ r, b = c ++ 0 :: r)

/-- What a call leaves for `ThreadingMode`: `none` if nothing. -/
def sets : Op → Option Bool
  | .threading (.num n) => if Fits n then some (decide (n ≠ 0)) else none
  | _ => none

/-- What the last call which sets something has set. -/
def lastSet : List Op → Bool
  | [] => false
  | o :: os => match sets o with
    | some b => b
    | none => lastSet os

end Riptide.Table.Spec
