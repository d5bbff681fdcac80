/-! Specification of fancy get and re-indexing. -/
namespace Riptide.Take.Spec

/-- Python indexing with a default for out-of-range indices. -/
def get {α : Type} (items : List α) (dflt : α) (i : Int) : α :=
  if 0 ≤ i then (items[i.toNat]?).getD dflt
  else if 0 ≤ items.length + i then (items[(items.length + i).toNat]?).getD dflt
  else dflt

/-- What a group number of partition `t` (whose first unique key is number `start`) becomes. -/
def reindex (uikey : List Int) (start : Nat) (key : Int) : Int :=
  if key ≤ 0 ∨ (uikey.length : Int) < start + key then 0
  else (uikey[start + (key.toNat - 1)]?).getD 0

/-- First row / first unique of partition `t`. -/
def first (cut : List Nat) (t : Nat) : Nat := if t = 0 then 0 else (cut[t - 1]?).getD 0

end Riptide.Take.Spec
