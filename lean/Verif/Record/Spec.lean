/-! # What record-array conversion has to produce, independent of the code -/
namespace Riptide.Record.Spec

/-- `out` is the column made of the `size` bytes at offset `off` of each record of `itemSize` bytes. -/
def IsColumn (mem : List Nat) (off size itemSize rows : Nat) (out : List (Option Nat)) : Prop :=
  out.length = rows * size ∧
  ∀ r < rows, ∀ k < size, out[r * size + k]? = some (mem[r * itemSize + (off + k)]?)

end Riptide.Record.Spec
