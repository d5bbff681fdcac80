/-! Floating-point results of group aggregates. -/
namespace Riptide.GroupBy

/-- A float or double as far as sums and means need it: NaN, a number holding an integer, or the
result of the final division `n / d`, which is left uninterpreted.  Infinities are not modelled. -/
inductive Val where
  | nan
  | num (n : Int)
  | quot (n d : Int)
  deriving DecidableEq, Repr

end Riptide.GroupBy
