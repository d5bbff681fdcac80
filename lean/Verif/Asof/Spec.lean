/-! # What an as-of merge is -/
namespace Riptide.Asof.Spec

/-- On the valid values `lt` is a strict order in which `same` is "neither is less" (integers, and floats that
are not NaN). -/
structure Ordered {V : Type} (valid : V → Bool) (lt same : V → V → Bool) : Prop where
  irrefl : ∀ x, valid x = true → lt x x = false
  trans : ∀ x y z, valid x = true → valid y = true → valid z = true → lt x y = true → lt y z = true → lt x z = true
  same_iff : ∀ x y, valid x = true → valid y = true → (same x y = true ↔ lt x y = false ∧ lt y x = false)
  same_trans : ∀ x y z, valid x = true → valid y = true → valid z = true → same x y = true → same y z = true → same x z = true

/-- The valid values do not decrease; invalid values may be anywhere. -/
def Sorted {V : Type} (valid : V → Bool) (lt : V → V → Bool) (l : List V) : Prop :=
  l.Pairwise fun x y => valid x = true → valid y = true → lt y x = false

/-- Right row `j` may be matched with left row `i` in a backward merge: same key, and its time is valid and
not after (before, if exact matches are not allowed) the left time. -/
def Eligible {K V : Type} (valid : V → Bool) (lt : V → V → Bool) (allowExact : Bool)
    (key1 key2 : List K) (val1 val2 : List V) (i j : Nat) : Prop :=
  ∃ x y, val1[i]? = some x ∧ val2[j]? = some y ∧ valid x = true ∧ valid y = true ∧
    key1[i]? = key2[j]? ∧ (if allowExact then lt x y = false else lt y x = true)

/-- The result of a backward merge for left row `i`: the last eligible row. -/
def BackwardAt (el : Nat → Prop) : Option Nat → Prop
  | none => ∀ j, ¬ el j
  | some j => el j ∧ ∀ l, j < l → ¬ el l

/-- The result of a forward merge for left row `i`: the first eligible row. -/
def ForwardAt (el : Nat → Prop) : Option Nat → Prop
  | none => ∀ j, ¬ el j
  | some j => el j ∧ ∀ l, l < j → ¬ el l

end Riptide.Asof.Spec
