/-! Specification vocabulary for the worker pool (independent of the model). -/
namespace Riptide.Work

/-- Each of the row numbers `0 … n-1` occurs exactly once in `l`, and nothing else does. -/
def EachOnce (n : Nat) (l : List Nat) : Prop := ∀ r, l.count r = if r < n then 1 else 0

/-- A list of half-open ranges that are consecutive, start at `lo` and end at `hi`. -/
inductive Tiles : Nat → Nat → List (Nat × Nat) → Prop where
  | nil (lo : Nat) : Tiles lo lo []
  | cons {lo mid hi : Nat} {l : List (Nat × Nat)} (h : lo ≤ mid) (ht : Tiles mid hi l) :
      Tiles lo hi ((lo, mid) :: l)

end Riptide.Work
