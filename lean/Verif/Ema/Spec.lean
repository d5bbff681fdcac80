/-! What the cumulative functions should give (C72-C75). -/
namespace Riptide.Ema.Spec

/-- The rows whose values count at row `i`: those of the same key, not after `i`, included, and not
before an included row of the key, up to `i`, whose reset flag is set. -/
def live (key : Nat → Int) (inc rst : Nat → Bool) (i : Nat) : List Nat :=
  (List.range (i + 1)).filter fun j =>
    decide (key j = key i) && inc j &&
      (List.range (i + 1)).all fun r => !(decide (key r = key i) && inc r && rst r) || decide (r ≤ j)

/-- The included rows of the same key up to `i`. -/
def upTo (key : Nat → Int) (inc : Nat → Bool) (i : Nat) : List Nat :=
  (List.range (i + 1)).filter fun j => decide (key j = key i) && inc j

/-- `v` is the best of the listed values: one of them, with none better. -/
def Best {T : Type} (better : T → T → Bool) (vals : List T) (v : T) : Prop :=
  v ∈ vals ∧ ∀ x ∈ vals, better x v = false

/-- `v` is the extreme of the valid values, invalid if there are none. -/
def NanBest {T : Type} (valid : T → Bool) (better : T → T → Bool) (vals : List T) (v : T) : Prop :=
  if vals.filter valid = [] then valid v = false else Best better (vals.filter valid) v

/-- `v` is the extreme of the values, invalid if there are none or if one of them is invalid. -/
def StrictBest {T : Type} (valid : T → Bool) (better : T → T → Bool) (vals : List T) (v : T) : Prop :=
  if vals = [] ∨ ∃ x ∈ vals, valid x = false then valid v = false else Best better vals v

/-- `out` is a moving average of `x`: the first row of a group holds its own value, and every later row
mixes its value with the result of the previous row `p` of its group, the latter with weight `W i p`. -/
def Averages {R : Type} [Lean.Grind.CommRing R] (key : Nat → Int) (x : Nat → R) (W : Nat → Nat → R)
    (out : Nat → R) (n : Nat) : Prop :=
  (∀ i, i < n → 1 ≤ key i → (∀ j, j < i → key j ≠ key i) → out i = x i) ∧
  ∀ i p, i < n → 1 ≤ key i → p < i → key p = key i → (∀ j, p < j → j < i → key j ≠ key i) →
    out i = x i * (1 - W i p) + out p * W i p

end Riptide.Ema.Spec
