import Verif.Common.Num
/-! # What conversion should do -/
namespace Riptide.Convert.Spec

/-- The result of converting the integer `x` between integer types: invalid becomes invalid and a
value of the target type is kept. -/
def IntOk (src dst : IT) (x y : Int) : Prop :=
  (x = src.inv → y = dst.inv) ∧ (x ≠ src.inv → dst.InRange x → y = x)

/-- `b` is the float with the exact value `x`. -/
def Exact (f : FT) (b : Nat) (x : Int) : Prop :=
  f.isFinite b = true ∧ f.scaled b = x * (2 ^ f.unit : Nat)

/-- The float formats meant: at least two exponent and one mantissa bit and enough exponent range
for the integers below `2^(mb+1)`. -/
def Good (f : FT) : Prop := 2 ≤ f.eb ∧ 1 ≤ f.mb ∧ f.mb + 1 ≤ f.bias

end Riptide.Convert.Spec
