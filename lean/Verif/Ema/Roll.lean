import Verif.Rolling.SumProps
/-! # Model of the rolling functions over a whole array, `src/Ema.cpp:84-765`, sums and means -/
namespace Riptide.Ema
open Rolling (Run rdS upTo store)
open GroupBy (Val)

variable {S T U : Type}

/-- A loop over positions that keeps a state and writes `pOut[i]`. -/
def flatLoop (g : S → Int → Option (S × U)) (js : List Int) (s : S × List (Int × U)) :
    Option (S × List (Int × U)) :=
  js.foldlM (fun s j => (g s.1 j).map fun r => (r.1, s.2 ++ [(j, r.2)])) s

/-- `currentSum += pIn[i]; pOut[i] = …`, the priming loop, `src/Ema.cpp:104-109`, `134-144`, `200-205`,
`226-237`. -/
def flatPrime (R : Run T S U) (src : List T) (s : S) (i : Int) : Option (S × U) :=
  (rdS src i).map fun x => (R.push s x, R.emit (R.push s x) (i + 1))

/-- `currentSum += pIn[i]; currentSum -= pIn[i - windowSize]; pOut[i] = …`, `src/Ema.cpp:111-119`,
`146-159`, `207-215`, `239-259`. -/
def flatSlide (R : Run T S U) (src : List T) (w : Int) (s : S) (i : Int) : Option (S × U) :=
  (rdS src i).bind fun x => (rdS src (i - w)).map fun y =>
    (R.pop (R.push s x) y, R.emit (R.pop (R.push s x) y) w)

/-- `RollingSum`, `RollingNanSum`, `RollingMean`, `RollingNanMean`, `src/Ema.cpp:97-260`: the priming loop
`for (i = 0; i < len && i < windowSize; i++)`, then `for (i = windowSize; i < len; i++)`.  The window is
whatever the caller passes (`705`, `750`). -/
def rollFlat (R : Run T S U) (src : List T) (w : Int) : Option (List (Option U)) :=
  ((flatLoop (flatPrime R src) (upTo 0 (min src.length w)) (R.zero, [])).bind
    (flatLoop (flatSlide R src w) (upTo w src.length))).bind fun r => store src.length r.2

/-- `RollingSum` of an integer column: the total is an `int64_t` for all of them, unsigned ones too
(`610-643`). -/
def rollSum (src : List Int) (w : Int) := rollFlat (Rolling.intRun .i64) src w

/-- `RollingNanSum` of an integer column of type `t`. -/
def rollNanSum (t : IT) (src : List Int) (w : Int) := rollFlat (Rolling.intNanRun t .i64) src w

/-- `RollingSum` of a floating-point column of format `f`. -/
def rollSumFloat (f : FT) (src : List (Option Int)) (w : Int) := rollFlat (Rolling.valRun f) src w

/-- `RollingMean` in double; integer columns (`645-680`) are converted value by value, invalid values
too. -/
def rollMean (src : List (Option Int)) (w : Int) := rollFlat Rolling.meanRun src w

/-- `RollingNanMean`, `src/Ema.cpp:218-260`: the division `0 / 0` of an empty window gives NaN. -/
def flatNanMean : Run (Option Int) (Val × Int) Val :=
  ⟨(.num 0, 0), Rolling.nanPush, Rolling.nanPop, fun s _ => if s.2 = 0 then .nan else Val.div s.1 s.2⟩

/-- `RollingNanMean` of a `double` column. -/
def rollNanMean (src : List (Option Int)) (w : Int) := rollFlat flatNanMean src w

/-- `RollingNanMean` of an integer column: the test `temp == temp` (`231`, `243`, `252`) is true of every
integer, so invalid values are not skipped. -/
def rollNanMeanInt (src : List Int) (w : Int) := rollNanMean (src.map some) w

/-- `RollingNanSum` of a `double` column. -/
def rollNanSumFloat (src : List (Option Int)) (w : Int) := rollFlat Rolling.nanSumRun src w

end Riptide.Ema
