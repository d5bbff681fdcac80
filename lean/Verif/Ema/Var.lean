import Verif.Ema.Model
/-! # Model of the rolling variances, `src/Ema.cpp:327-575`

Numbers are rationals: rounding and infinities are left out.  `none` is NaN.  The window is positive (for
the others see `rollSum_negative_window`).  `RollingStd` and `RollingNanStd` (`364-399`, `488-575`) are
the same loops with a square root around every result. -/
namespace Riptide.Ema

/-- The variables `amean`, `asqr` of `RollingVar`. -/
structure VarState where
  mean : Rat
  sqr : Rat
deriving DecidableEq

/-- `delta = item - amean; amean += delta / count; asqr += delta * (item - amean);`,
`src/Ema.cpp:341-343`, `418-420`, `452-454`; `c` is the divisor. -/
def varPush (s : VarState) (x c : Rat) : VarState :=
  ⟨s.mean + (x - s.mean) / c, s.sqr + (x - s.mean) * (x - (s.mean + (x - s.mean) / c))⟩

/-- `delta = item - old; old -= amean; amean += delta * count_inv; item -= amean;
asqr += (item + old) * delta;`, `src/Ema.cpp:354-358`, `442-446`. -/
def varSwap (s : VarState) (x o inv : Rat) : VarState :=
  ⟨s.mean + (x - o) * inv, s.sqr + ((x - (s.mean + (x - o) * inv)) + (o - s.mean)) * (x - o)⟩

/-- One row of `RollingVar`, `src/Ema.cpp:327-362`: `pOut[i] = asqr / i` while priming (`0 / 0` is NaN),
`asqr * count_inv` afterwards. -/
def varRow (src : List Rat) (w : Nat) (s : VarState) (i : Nat) :
    Option (VarState × Option (Option Rat)) :=
  src[i]?.bind fun x =>
    if i < w then
      some (varPush s x ((i : Rat) + 1),
        some (if i = 0 then none else some ((varPush s x ((i : Rat) + 1)).sqr / i)))
    else
      src[i - w]?.map fun o => (varSwap s x o (1 / w), some (some ((varSwap s x o (1 / w)).sqr * (1 / w))))

/-- `RollingVar` of a column without NaN. -/
def rollVar (src : List Rat) (w : Nat) : Option (List (Option (Option Rat))) :=
  rowLoop (varRow src w) src.length ⟨0, 0⟩

/-- The variables of `RollingNanVar`; `inv` is `count_inv`. -/
structure NanVarState where
  s : VarState
  count : Rat
  inv : Rat
deriving DecidableEq

/-- `if (!(asqr >= 0)) asqr = 0;`, `src/Ema.cpp:477-480`. -/
def clampVar (n : NanVarState) : NanVarState := { n with s := { n.s with sqr := if n.s.sqr ≥ 0 then n.s.sqr else 0 } }

/-- The update of the second loop, `src/Ema.cpp:434-475`.  Note `delta = old = amean`. -/
def nanVarSlide (n : NanVarState) : Option Rat → Option Rat → NanVarState
  | some x, some o => { n with s := varSwap n.s x o n.inv }
  | some x, none =>
    ⟨⟨n.s.mean + (x - n.s.mean) * (1 / (n.count + 1)),
      n.s.sqr + (x - n.s.mean) * (x - (n.s.mean + (x - n.s.mean) * (1 / (n.count + 1))))⟩,
      n.count + 1, 1 / (n.count + 1)⟩
  | none, some _ =>
    if n.count - 1 > 0 then
      ⟨⟨n.s.mean - n.s.mean * (1 / (n.count - 1)),
        n.s.sqr - n.s.mean * (n.s.mean - (n.s.mean - n.s.mean * (1 / (n.count - 1))))⟩,
        n.count - 1, 1 / (n.count - 1)⟩
    else ⟨⟨0, 0⟩, n.count - 1, 1 / (n.count - 1)⟩
  | none, none => n

/-- One row of `RollingNanVar`, `src/Ema.cpp:401-486`.  With `count` at 0, `count_inv` is infinite and
`0 * inf` is NaN, which the model does not follow further: there the result is `none`. -/
def nanVarRow (src : List (Option Rat)) (w : Nat) (n : NanVarState) (i : Nat) :
    Option (NanVarState × Option (Option Rat)) :=
  src[i]?.bind fun x =>
    if i < w then
      match x with
      | some x =>
        some (⟨varPush n.s x (n.count + 1), n.count + 1, 1 / w⟩,
          some (some ((varPush n.s x (n.count + 1)).sqr / (n.count + 1))))
      | none => some ({ n with inv := 1 / w }, some none)
    else
      src[i - w]?.map fun o =>
        (clampVar (nanVarSlide n x o), some
          (if (nanVarSlide n x o).count = 0 then none
           else some ((clampVar (nanVarSlide n x o)).s.sqr * (nanVarSlide n x o).inv)))

/-- `RollingNanVar`. -/
def rollNanVar (src : List (Option Rat)) (w : Nat) : Option (List (Option (Option Rat))) :=
  rowLoop (nanVarRow src w) src.length ⟨⟨0, 0⟩, 0, 1 / w⟩

end Riptide.Ema
