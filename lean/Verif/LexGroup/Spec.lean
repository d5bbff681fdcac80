/-! What grouping from a sorted order means, without reference to the code. -/
namespace Riptide.LexGroup

/-- The consecutive runs of equal values in a row order: the runs put together are the order, none is empty, the
values within a run are equal, and those of neighbouring runs differ. -/
structure IsRuns {β : Type} (val : Nat → β) (order : List Nat) (runs : List (List Nat)) : Prop where
  flat : runs.flatten = order
  nonempty : ∀ l ∈ runs, l ≠ []
  same : ∀ l ∈ runs, ∀ i ∈ l, ∀ j ∈ l, val i = val j
  apart : ∀ (k : Nat) (l l' : List Nat), runs[k]? = some l → runs[k + 1]? = some l' → ∀ i ∈ l, ∀ j ∈ l', val i ≠ val j

/-- Equal values stand next to each other, as after a sort. -/
def Contiguous {β : Type} (val : Nat → β) (order : List Nat) : Prop :=
  ∀ (i j k a b c : Nat), i < j → j < k → order[i]? = some a → order[j]? = some b → order[k]? = some c →
    val a = val c → val b = val a

end Riptide.LexGroup
