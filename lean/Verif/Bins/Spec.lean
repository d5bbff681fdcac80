/-! # What the searches should return, independent of the code -/
namespace Riptide.Bins.Spec

/-- Number of bins before the left insertion point of a value: those less than it. NaN is above every
number, as in numpy. -/
def leftPoint (bins : List Int) : Option Int → Nat
  | some v => (bins.filter fun b => decide (b < v)).length
  | none => bins.length

/-- Number of bins before the right insertion point of a value: those less than or equal to it. -/
def rightPoint (bins : List Int) : Option Int → Nat
  | some v => (bins.filter fun b => decide (b ≤ v)).length
  | none => bins.length

/-- `r` is the bin of `v` for the edges `e0 < … < ek`: 0 outside, 1 for `v = e0`, otherwise the `i` with
`e(i-1) < v ≤ e(i)`. -/
def IsBin {α : Type} (lt : α → α → Prop) (edges : List α) (v : α) (r : Int) : Prop :=
  (r = 0 ∧ ((∃ e, edges.head? = some e ∧ lt v e) ∨ ∃ e, edges.getLast? = some e ∧ lt e v)) ∨
  (r = 1 ∧ ∃ e, edges.head? = some e ∧ ¬ lt v e ∧ ¬ lt e v) ∨
  ∃ i : Nat, r = i ∧ 0 < i ∧ ∃ a b, edges[i - 1]? = some a ∧ edges[i]? = some b ∧ lt a v ∧ ¬ lt b v

end Riptide.Bins.Spec
