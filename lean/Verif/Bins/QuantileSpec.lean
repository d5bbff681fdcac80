import Verif.Common.Num
/-! # The bin of a value between edges -/
namespace Riptide.Bins

/-- The label of a value between edges which are in order: 1 outside of them; otherwise one more than the number of the first edge, the zeroth left out,
which is not less than the value.  All are `double`s. -/
def IsLabel (edges : List Nat) (v : Nat) (label : Int) : Prop :=
  (label = 1 ∧ ∃ first last, edges[0]? = some first ∧ edges[edges.length - 1]? = some last ∧ (FT.f64.key v < FT.f64.key first ∨ FT.f64.key last < FT.f64.key v)) ∨
  ∃ k : Nat, label = k + 1 ∧ 1 ≤ k ∧ ∃ first e, edges[0]? = some first ∧ edges[k]? = some e ∧ FT.f64.key first ≤ FT.f64.key v ∧ FT.f64.key v ≤ FT.f64.key e ∧
    ∀ (k' : Nat) (e' : Nat), 1 ≤ k' → k' < k → edges[k']? = some e' → FT.f64.key e' < FT.f64.key v

/-- Edges in order, without a NaN. -/
def Edges (edges : List Nat) : Prop := (∀ e ∈ edges, FT.f64.isNan e = false) ∧ edges.Pairwise (fun a b => FT.f64.key a ≤ FT.f64.key b)

end Riptide.Bins
