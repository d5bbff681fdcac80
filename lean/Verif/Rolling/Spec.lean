import Verif.Pack.Spec
import Verif.GroupBy.Spec
/-! What the functions over packed groups should give (C27-C29, C59). -/
namespace Riptide.Rolling.Spec
open Pack.Spec
open GroupBy (Val)
open GroupBy.Spec (validVals)

/-- The elements of a column at the given rows. -/
def pick {T : Type} (src : List T) (rows : List Nat) : List T := rows.filterMap fun r => src[r]?

/-- The values of bin `b`, in row order. -/
def groupVals {T : Type} (keys : List Int) (src : List T) (b : Nat) : List T :=
  pick src (rowsOf keys b)

/-- The last `min w (k + 1)` of the values up to position `k`. -/
def window {T : Type} (vals : List T) (w k : Nat) : List T := (vals.take (k + 1)).drop (k + 1 - w)

/-- Position asked for by `nth`: from the start, or from the end when negative. -/
def nthPos (n : Int) (count : Nat) : Option Nat :=
  if 0 ≤ n then (if n < count then some n.toNat else none)
  else (if 0 ≤ count + n then some (count + n).toNat else none)

/-- The position `w` earlier (later when `w` is negative), if the group has it. -/
def shifted (k : Nat) (w : Int) (count : Nat) : Option Nat :=
  if 0 ≤ (k : Int) - w ∧ (k : Int) - w < count then some ((k : Int) - w).toNat else none

/-- The absolute values of the valid elements add up to less than `M`. -/
def Small (M : Nat) (vals : List (Option Int)) : Prop := ((validVals vals).map Int.natAbs).sum < M

/-- What a rolling sum or mean of a floating-point column should hold: NaN exactly if the window has a
NaN, otherwise `g` of the window's total. -/
def sumAt (vals : List (Option Int)) (w k : Nat) (g : Int → Val) : Val :=
  if none ∈ window vals w k then .nan else g (validVals (window vals w k)).sum

/-- What it does hold: NaN if any value of the group up to `k` is NaN, even one that has left the
window. -/
def stickyAt (vals : List (Option Int)) (w k : Nat) (g : Int → Val) : Val :=
  if none ∈ vals.take (k + 1) then .nan else g (validVals (window vals w k)).sum

end Riptide.Rolling.Spec
