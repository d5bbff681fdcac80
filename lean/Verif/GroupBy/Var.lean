import Verif.GroupBy.Model
/-! # Model of the variance of groups, `AccumVar` and `AccumNanVar`, `src/GroupBy.cpp:946-1145`

Values are rationals, `none` being an invalid one (NaN or the invalid integer); rounding is left out.  Field `out` is
`mean` and later the result, `tmp` is `sumsquares`.  For float columns the means are in an array of their own
(`pDataTmp`); that makes no difference without rounding.  There is no parallel version of these functions. -/
namespace Riptide.GroupBy

/-- Cells of the variance, `src/GroupBy.cpp:953-982`: a result `some none` is the invalid value. -/
abbrev VCell := Cell (Option Rat) Rat

/-- Add to a mean, `src/GroupBy.cpp:1001`. -/
def addMean (o : Option (Option Rat)) (v : Rat) : Option (Option Rat) := o.map fun m => m.map (· + v)

/-- `loop_body1` of `AccumVar`, `src/GroupBy.cpp:982-1007`. -/
def varSum (x : Option Rat) (c : VCell) : VCell :=
  if 0 ≤ c.cnt then
    match x with
    | none => { c with cnt := -1 }
    | some v => { c with out := addMean c.out v, cnt := c.cnt + 1 }
  else c

/-- `loop_body1` of `AccumNanVar`, `src/GroupBy.cpp:1089-1104`. -/
def nanVarSum (x : Option Rat) (c : VCell) : VCell :=
  match x with
  | none => c
  | some v => { c with out := addMean c.out v, cnt := c.cnt + 1 }

/-- Divide a mean, `src/GroupBy.cpp:1013`; `0 / 0` is NaN (`none`). -/
def divMean (o : Option (Option Rat)) (n : Int) : Option (Option Rat) :=
  o.map fun m => if n = 0 then none else m.map (· / (n : Rat))

/-- `loop_body2` of `AccumVar`, `src/GroupBy.cpp:1009-1016`. -/
def varMean (c : VCell) : VCell := if 0 ≤ c.cnt then { c with out := divMean c.out c.cnt } else c

/-- `loop_body2` of `AccumNanVar`, `src/GroupBy.cpp:1106-1110`. -/
def nanVarMean (c : VCell) : VCell := { c with out := divMean c.out c.cnt }

/-- `diff = temp - mean; sumsquares += diff * diff` on numbers; `src/GroupBy.cpp:1033-1034`; unwritten memory or
NaN gives an unknown value. -/
def addSquare (c : VCell) (v : Rat) : Option Rat :=
  c.tmp.bind fun s => c.out.bind fun m => m.map fun m => s + (v - m) * (v - m)

/-- `loop_body3` of `AccumVar`, `src/GroupBy.cpp:1022-1038`.  A NaN row of a bin without invalid values does not exist;
it would make the sum NaN. -/
def varSquare (x : Option Rat) (c : VCell) : VCell :=
  if 0 ≤ c.cnt then
    match x with
    | none => { c with tmp := none }
    | some v => { c with tmp := addSquare c v }
  else c

/-- `loop_body3` of `AccumNanVar`, `src/GroupBy.cpp:1116-1131`. -/
def nanVarSquare (x : Option Rat) (c : VCell) : VCell :=
  match x with
  | none => c
  | some v => { c with tmp := addSquare c v }

/-- `loop_body4`, `src/GroupBy.cpp:1040-1050`, `1133-1143`. -/
def varFinish (c : VCell) : VCell :=
  if 1 < c.cnt then { c with out := c.tmp.map fun s => some (s / ((c.cnt - 1 : Int) : Rat)) } else { c with out := some none }

/-- The four loops, `src/GroupBy.cpp:947-1052`, `1055-1145`, with `pass` -1. -/
def varKernel (sum square : Option Rat → VCell → VCell) (mean : VCell → VCell) (lo hi : Nat)
    (pass : Int) (rows : List (Int × Option Rat)) (m : Mem (Option Rat) Rat) : Option (Mem (Option Rat) Rat) :=
  (((((clearBins pass (fun c : VCell => { c with out := some (some 0) }) lo hi m).bind
    (rowLoop sum lo hi rows)).bind
    (forBins mean lo hi)).bind
    (forBins (fun c : VCell => { c with tmp := some 0 }) lo hi)).bind
    (rowLoop square lo hi rows)).bind
    (forBins varFinish lo hi)

/-- `AccumVar`, `src/GroupBy.cpp:947-1052`. -/
def accumVar (lo hi : Nat) : Kernel (Option Rat) (Option Rat) Rat := varKernel varSum varSquare varMean lo hi

/-- `AccumNanVar`, `src/GroupBy.cpp:1055-1145`. -/
def accumNanVar (lo hi : Nat) : Kernel (Option Rat) (Option Rat) Rat := varKernel nanVarSum nanVarSquare nanVarMean lo hi

end Riptide.GroupBy
