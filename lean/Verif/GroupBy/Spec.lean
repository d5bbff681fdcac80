import Verif.Common.Num
import Verif.GroupBy.Val
/-! What the aggregates of groups should be (C23-C26). -/
namespace Riptide.GroupBy.Spec

/-- The values of the rows of bin `b`, in row order; a row is (key, value). -/
def valsOf {α : Type} (rows : List (Int × α)) (b : Nat) : List α :=
  (rows.filter fun r => decide (r.1 = (b : Int))).map Prod.snd

/-- The sum of the integers of a group whose elements have type `t`, in the output type `u`: modulo
the width of `u`, invalid if the group has an invalid element. -/
def groupSum (t u : IT) (vals : List Int) : Int :=
  if t.inv ∈ vals then u.inv else u.wrap vals.sum

/-- The sum of the valid integers of a group. -/
def groupNanSum (t u : IT) (vals : List Int) : Int :=
  u.wrap (vals.filter fun x => decide (x ≠ t.inv)).sum

/-- `r` is the maximum (minimum) of a group: an invalid value if the group is empty or has an invalid
element.  Values are ordered by `key`. -/
def Extreme (isMax : Bool) (valid : Int → Bool) (key : Int → Int) (vals : List Int) (r : Int) : Prop :=
  ((vals = [] ∨ ∃ x ∈ vals, valid x = false) → valid r = false) ∧
  (vals ≠ [] → (∀ x ∈ vals, valid x = true) →
    r ∈ vals ∧ ∀ x ∈ vals, if isMax then key x ≤ key r else key r ≤ key x)

/-- `r` is the maximum (minimum) of the valid elements of a group; invalid if there are none. -/
def NanExtreme (isMax : Bool) (valid : Int → Bool) (key : Int → Int) (vals : List Int) (r : Int) :
    Prop :=
  ((∀ x ∈ vals, valid x = false) → valid r = false) ∧
  ((∃ x ∈ vals, valid x = true) →
    r ∈ vals ∧ valid r = true ∧
      ∀ x ∈ vals, valid x = true → if isMax then key x ≤ key r else key r ≤ key x)

/-- The valid elements of a group. -/
def validVals (vals : List (Option Int)) : List Int := vals.filterMap id

/-- `s` is the total of the numbers `vs`, exact when their absolute values add up to less than
`bound`. -/
def Total (bound : Nat) (vs : List Int) (s : Int) : Prop :=
  (vs.map Int.natAbs).sum < bound → s = vs.sum

/-- `v` is the sum of a group: NaN if the group has an invalid element. -/
def IsSum (bound : Nat) (vals : List (Option Int)) (v : Val) : Prop :=
  (none ∈ vals → v = .nan) ∧
  (none ∉ vals → ∃ s, v = .num s ∧ Total bound (validVals vals) s)

/-- `v` is the sum of the valid elements of a group. -/
def IsNanSum (bound : Nat) (vals : List (Option Int)) (v : Val) : Prop :=
  ∃ s, v = .num s ∧ Total bound (validVals vals) s

/-- `v` is the mean of a group, total divided by number: NaN if the group is empty or has an invalid
element. -/
def IsMean (bound : Nat) (vals : List (Option Int)) (v : Val) : Prop :=
  ((vals = [] ∨ none ∈ vals) → v = .nan) ∧
  (vals ≠ [] → none ∉ vals → ∃ s, v = .quot s vals.length ∧ Total bound (validVals vals) s)

/-- `v` is the mean of the valid elements of a group, NaN if there are none. -/
def IsNanMean (bound : Nat) (vals : List (Option Int)) (v : Val) : Prop :=
  (validVals vals = [] → v = .nan) ∧
  (validVals vals ≠ [] →
    ∃ s, v = .quot s (validVals vals).length ∧ Total bound (validVals vals) s)

end Riptide.GroupBy.Spec
