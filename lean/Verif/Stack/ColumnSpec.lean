import Verif.Stack.ConvertSpec
import Verif.Stack.TypesLemmas
import Verif.Stack.Column
/-! # What is asked of a stacked column -/
namespace Riptide.Stack

/-- The rows of the column before those of file `i`. -/
def before (l : List Part) (i : Nat) : Nat := ((l.take i).map Part.rows).sum

/-- Files whose columns can be stacked: at least one has the column, all with the same dimensions but the first, all in C order; a file has the
bytes of its items, and columns without rows are from files without rows. -/
structure Stackable (l : List Part) (tail : List Nat) (n : Nat) : Prop where
  present : blocks l ≠ []
  shape : SameShape (blocks l) tail n
  corder : n ≤ 1 ∨ ∀ b ∈ blocks l, b.c = true ∧ b.f = false
  bytes : ∀ p ∈ l, ∀ b, p.block = some b → p.data.length = p.own * rowSize b ∧ ∀ x ∈ p.data, x < 256
  empty : ∀ p ∈ l, p.block ≠ none → p.own = 0 → p.len = 0

/-- The number of items in a row. -/
def width (tail : List Nat) : Nat := tail.foldl (· * ·) 1

end Riptide.Stack
