import Verif.Stack.ColumnSpec
import Verif.Stack.Rotate
/-! # What is asked of stacked columns in Fortran order -/
namespace Riptide.Stack

/-- Files whose columns are tables of `w` columns in Fortran order with items of the same type: a file has the bytes of its items, and columns
without rows are from files without rows. -/
structure Tables (l : List Part) (w : Nat) : Prop where
  present : blocks l ≠ []
  dims : ∀ b ∈ blocks l, ∃ n, b.dims = [n, w]
  order : ∀ b ∈ blocks l, b.f = true
  same : ∀ b ∈ blocks l, ∀ b' ∈ blocks l, b.type = b'.type ∧ b.item = b'.item
  bytes : ∀ p ∈ l, ∀ b, p.block = some b → p.data.length = p.own * rowSize b
  empty : ∀ p ∈ l, p.block ≠ none → p.own = 0 → p.len = 0

end Riptide.Stack
