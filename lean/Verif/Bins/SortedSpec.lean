import Verif.Arrays.InfoSpec
import Verif.Bins.CallSpec
import Verif.Bins.QuantileSpec
/-! What the arrays of `NanInfCountFromSort` and `BinsToCutsSorted` hold (C148). -/
namespace Riptide.Bins.Sorted
open Riptide.Nums

/-- The array is an index of int32 or int64 with these rows. -/
def IsIndex (x : Arr) (m : Mem) (index : List Nat) : Prop :=
  x.swapped = false ∧ ((x.type = 5 ∧ x.lay.item = 4 ∧ Ints .i32 x m (index.map fun (r : Nat) => (r : Int))) ∨
    ((x.type = 7 ∨ x.type = 9) ∧ x.lay.item = 8 ∧ Ints .i64 x m (index.map fun (r : Nat) => (r : Int))))

/-- The array is one of float32 or float64 with the format `f`, and has these bits. -/
def IsFloats (f : FT) (a : Arr) (m : Mem) (bs : List Nat) : Prop :=
  a.swapped = false ∧ ((a.type = 11 ∧ f = FT.f32 ∧ a.lay.item = 4 ∧ Bits 4 a m bs) ∨ (a.type = 12 ∧ f = FT.f64 ∧ a.lay.item = 8 ∧ Bits 8 a m bs))

/-- The array is one of integers of the type `t`, not of booleans, and has these numbers. -/
def IsInts (t : IT) (a : Arr) (m : Mem) (vs : List Int) : Prop :=
  a.swapped = false ∧ a.type ≠ 0 ∧ Call.Spec.whole a.type = some t ∧ a.lay.item = t.bits / 8 ∧ Ints t a m vs

/-- The array has numbers which are these as `double`. -/
def IsDoubles (a : Arr) (m : Mem) (ds : List Nat) : Prop :=
  (IsFloats FT.f64 a m ds) ∨ (∃ bs, IsFloats FT.f32 a m bs ∧ ds = bs.map (Call.convF FT.f32 FT.f64)) ∨
    ∃ t vs, IsInts t a m vs ∧ ds = vs.map FT.f64.ofInt

end Riptide.Bins.Sorted
