/-! # Order statistics and the most frequent value -/
namespace Riptide.Median.Spec

variable {α : Type}

/-- `x` has rank `k` (from 0) among the values of `l`: it is one of them, at most `k` are smaller and more than `k`
are not larger. -/
def Rank (lt : α → α → Bool) (l : List α) (k : Nat) (x : α) : Prop :=
  x ∈ l ∧ l.countP (fun y => lt y x) ≤ k ∧ k < l.countP fun y => !lt x y

/-- `x` is a value of `l` occurring at least as often as any other, and the smallest of those. -/
def Mode (lt eq : α → α → Bool) (l : List α) (x : α) : Prop :=
  x ∈ l ∧ ∀ y ∈ l, l.countP (eq y) ≤ l.countP (eq x) ∧ (l.countP (eq y) = l.countP (eq x) → lt y x = false)

/-- What the C++ standard says of `std::nth_element` on values with `P`: another order of the same values in which no
value before position `n` is larger, and no value after it smaller, than the one at `n`. -/
def NthElement (P : α → Prop) (lt : α → α → Bool) (nth : List α → Nat → List α) : Prop :=
  ∀ (l : List α) (n : Nat), (∀ x ∈ l, P x) → n < l.length → (nth l n).Perm l ∧
    ∀ x, (nth l n)[n]? = some x →
      (∀ y ∈ (nth l n).take n, lt x y = false) ∧ ∀ y ∈ (nth l n).drop n, lt y x = false

/-- The mean. -/
def mean (l : List Rat) : Rat := l.sum / l.length

/-- `r` is the median of the values `v`: the middle one, or `split` of the two middle ones; `inv` if there is none. -/
def IsMedian (lt : α → α → Bool) (split : α → α → Option α) (inv : α) (v : List α) (r : α) : Prop :=
  (v = [] → r = inv) ∧
  (v.length % 2 = 1 → Rank lt v (v.length / 2) r) ∧
  (v ≠ [] → v.length % 2 = 0 → ∃ x y, Rank lt v (v.length / 2) x ∧ Rank lt v (v.length / 2 - 1) y ∧ split x y = some r)

/-- `r` is the quantile of the values `v` taken at the ranks `d` and `u`: the value there if they are equal, else
`split` of both values. -/
def AtRanks {U : Type} (lt : α → α → Bool) (cast : α → U) (split : α → α → Option U) (v : List α) (d u : Nat) (r : U) : Prop :=
  if d = u then ∃ x, Rank lt v d x ∧ r = cast x
  else ∃ x y, Rank lt v u x ∧ Rank lt v d y ∧ split x y = some r

/-- The ranks of the quantile `q / 1e9` of `n` values: `(n - 1) q / 1e9`, rounded down and up. -/
def quantRanks (q n : Nat) : Nat × Nat := ((n - 1) * q / 1000000000, ((n - 1) * q + 999999999) / 1000000000)

/-- `r` is the trimmed mean of the values `v`, `t` being the number of values on each side up to the bound (the bounds
are not trimmed): the mean of the values from the rank `t - 1` to the rank `t - 1` from above. -/
def IsTrimmed {U : Type} (lt : α → α → Bool) (num : α → Rat) (t : Nat) (cast : Rat → U) (inv : U) (v : List α) (r : U) : Prop :=
  (v.length ≤ 2 * t → r = inv) ∧
  (2 * t < v.length → ∃ lb ub, Rank lt v (t - 1) lb ∧ Rank lt v (v.length - t) ub ∧
    r = cast (mean ((v.filter fun z => !lt z lb && !lt ub z).map num)))

end Riptide.Median.Spec
