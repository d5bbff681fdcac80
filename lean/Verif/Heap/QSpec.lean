import Verif.Heap.QModel
import Verif.GroupBy.Spec
/-! What the rolling quantile should give (C31). -/
namespace Riptide.Heap.Spec
open GroupBy.Spec (validVals)

/-- The valid values in ascending order. -/
def ascending (vals : List (Option Int)) : List Int := (validVals vals).mergeSort

/-- The `q`-quantile (`q` in units of 1e-9) of the valid values: the one at position `(n - 1) * q`, or
both neighbours if that lies between two positions.  Positions closer than `tol` (in units of 1e-9) to a
whole one count as whole. -/
def quantile (tol q : Nat) (vals : List (Option Int)) : Res :=
  let v := ascending vals
  let p := (v.length - 1) * q
  let i := p / 1000000000
  let f := p % 1000000000
  if v.length = 0 then .inv
  else if f = 0 ∨ f < tol then .one (v.getD i 0)
  else if 1000000000 - f < tol then .one (v.getD (i + 1) 0)
  else .two (v.getD i 0) (v.getD (i + 1) 0)

end Riptide.Heap.Spec
