/-! What a trailing time window contains. -/
namespace Riptide.Window

/-- The rows of the window of row `i`, latest first: all `j ≤ i` with `time[i] - time[j] ≤ delta`. -/
def windowRows (time : Nat → Int) (delta : Int) (i : Nat) : List Nat :=
  ((List.range (i + 1)).filter fun j => decide (time i - time j ≤ delta)).reverse

end Riptide.Window
