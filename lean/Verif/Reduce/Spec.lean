import Verif.Common.Num
/-! What minimum, maximum and their positions mean for arrays with missing values. -/
namespace Riptide.Reduce

/-- `r` is the maximum (minimum) of the integers `xs`: invalid if some element is invalid. -/
def IntExtreme (isMax : Bool) (t : IT) (xs : List Int) (r : Int) : Prop :=
  (t.inv ∈ xs → r = t.inv) ∧
  (t.inv ∉ xs → r ∈ xs ∧ ∀ x ∈ xs, if isMax then x ≤ r else r ≤ x)

/-- `r` is the maximum (minimum) of the floats `xs` (bit patterns): NaN if some element is NaN. -/
def FltExtreme (isMax : Bool) (f : FT) (xs : List Int) (r : Int) : Prop :=
  ((∃ x ∈ xs, f.isNan x.toNat = true) → f.isNan r.toNat = true) ∧
  ((∀ x ∈ xs, f.isNan x.toNat = false) →
    r ∈ xs ∧ ∀ x ∈ xs, if isMax then f.key x.toNat ≤ f.key r.toNat else f.key r.toNat ≤ f.key x.toNat)

/-- `r` is the maximum (minimum) of the valid integers among `xs`; invalid if there are none. -/
def IntNanExtreme (isMax : Bool) (t : IT) (xs : List Int) (r : Int) : Prop :=
  ((∀ x ∈ xs, x = t.inv) → r = t.inv) ∧
  ((∃ x ∈ xs, x ≠ t.inv) →
    r ∈ xs ∧ r ≠ t.inv ∧ ∀ x ∈ xs, x ≠ t.inv → if isMax then x ≤ r else r ≤ x)

/-- `r` is the maximum (minimum) of the floats of `xs` that are not NaN; NaN if there are none. -/
def FltNanExtreme (isMax : Bool) (f : FT) (xs : List Int) (r : Int) : Prop :=
  ((∀ x ∈ xs, f.isNan x.toNat = true) → f.isNan r.toNat = true) ∧
  ((∃ x ∈ xs, f.isNan x.toNat = false) →
    r ∈ xs ∧ f.isNan r.toNat = false ∧ ∀ x ∈ xs, f.isNan x.toNat = false →
      if isMax then f.key x.toNat ≤ f.key r.toNat else f.key r.toNat ≤ f.key x.toNat)

/-- `p` is the position of the first element for which `bad` holds. -/
def FirstBad (bad : Int → Prop) (xs : List Int) (p : Nat) : Prop :=
  ∃ v, xs[p]? = some v ∧ bad v ∧ ∀ (q : Nat) x, q < p → xs[q]? = some x → ¬ bad x

/-- `p` is the first position of the greatest (`isMax`) or least key among the elements that are not
`bad`. -/
def FirstExtreme (isMax : Bool) (bad : Int → Prop) (key : Int → Int) (xs : List Int) (p : Nat) : Prop :=
  ∃ v, xs[p]? = some v ∧ ¬ bad v ∧
    (∀ x ∈ xs, ¬ bad x → if isMax then key x ≤ key v else key v ≤ key x) ∧
    ∀ (q : Nat) x, q < p → xs[q]? = some x → ¬ bad x → key x ≠ key v

end Riptide.Reduce
