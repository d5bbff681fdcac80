import Verif.Common.Lists
/-! What packing and linking the rows of groups should give (C20-C22). -/
namespace Riptide.Pack.Spec

/-- The rows of bin `b`, in increasing order. -/
def rowsOf (keys : List Int) (b : Nat) : List Nat :=
  (List.range keys.length).filter fun i => keys[i]? == some (b : Int)

/-- `iGroup`, `iFirst`, `nCount` list the rows of every bin below `bins`: entry `j` of the slice of
bin `b` is the `j`-th row of that bin, and the slice has as many entries as the bin has rows.
`none` is an entry that was never written. -/
def Slices (keys : List Int) (bins : Nat) (group first count : List (Option Int)) : Prop :=
  ∀ b, b < bins → ∃ f : Int, first[b]? = some (some f) ∧
    count[b]? = some (some ((rowsOf keys b).length : Int)) ∧
    ∀ (j : Nat) (r : Nat), (rowsOf keys b)[j]? = some r →
      ∃ p : Nat, (p : Int) = f + (j : Int) ∧ group[p]? = some (some (r : Int))

/-- Every position below `n` is in the slice of exactly one bin. -/
def Tiled (bins n : Nat) (first count : List (Option Int)) : Prop :=
  ∀ p, p < n → ∃ b, (b < bins ∧ ∃ f c : Int, first[b]? = some (some f) ∧
      count[b]? = some (some c) ∧ f ≤ (p : Int) ∧ (p : Int) < f + c) ∧
    ∀ b', b' < bins → (∃ f c : Int, first[b']? = some (some f) ∧ count[b']? = some (some c) ∧
      f ≤ (p : Int) ∧ (p : Int) < f + c) → b' = b

/-- `v` is the nearest later row of the group of row `i`, or `stop` when there is none. -/
def NextLink (keys : List Int) (stop : Int) (i : Nat) (v : Int) : Prop :=
  (∃ j : Nat, v = (j : Int) ∧ i < j ∧ j < keys.length ∧ keys[j]? = keys[i]? ∧
      ∀ m, i < m → m < j → keys[m]? ≠ keys[i]?) ∨
    (v = stop ∧ ∀ j, i < j → j < keys.length → keys[j]? ≠ keys[i]?)

/-- `v` is the nearest earlier row of the group of row `i`, or `stop` when there is none. -/
def PrevLink (keys : List Int) (stop : Int) (i : Nat) (v : Int) : Prop :=
  (∃ j : Nat, v = (j : Int) ∧ j < i ∧ keys[j]? = keys[i]? ∧
      ∀ m, j < m → m < i → keys[m]? ≠ keys[i]?) ∨
    (v = stop ∧ ∀ j, j < i → keys[j]? ≠ keys[i]?)

/-- The bins `1 … bins` are numbered by first appearance (0 is the filtered bin): each of them has
a row, and a row of bin `b + 1` comes after some row of bin `b`. -/
def Numbered (keys : List Int) (bins : Nat) : Prop :=
  (∀ (i : Nat) (k : Int), keys[i]? = some k → 0 ≤ k ∧ k ≤ (bins : Int)) ∧
  (∀ b : Nat, 1 ≤ b → b ≤ bins → ∃ i : Nat, keys[i]? = some (b : Int)) ∧
  (∀ (i b : Nat), 1 ≤ b → keys[i]? = some ((b : Int) + 1) → ∃ m, m < i ∧ keys[m]? = some (b : Int))

end Riptide.Pack.Spec
