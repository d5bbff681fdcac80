import Verif.Arrays.NumsSpec
/-! What a filter is, for C146; the keys are those of `Verif/Pack/CallSpec.lean`. -/
namespace Riptide.Keys.Spec
open Riptide.Nums

/-- A boolean array in C order. -/
structure Flags (f : Arr) (fm : Mem) (kept : List Bool) : Prop where
  type : f.type = 0
  item : f.lay.item = 1
  plain : Plain f
  vals : Ints .i8 f fm (kept.map fun b => if b then 1 else 0)

/-- The rows kept by an optional filter for `n` rows. -/
def Kept (n : Nat) : Option (Arr × Mem) → List Bool → Prop
  | none, kept => kept = List.replicate n true
  | some (f, fm), kept => Flags f fm kept ∧ kept.length = n

end Riptide.Keys.Spec
