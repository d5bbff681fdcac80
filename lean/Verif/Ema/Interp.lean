import Verif.Work.Elem
/-! # Model of `InterpExtrap2d`, `src/Ema.cpp:2540-2880`

Numbers are rationals: rounding, infinities and NaNs among the knots are left out.  A NaN of the first
argument is `none`. -/
namespace Riptide.Ema
open Work (elemWork)

/-- `while (xi > xp[j] && j < M) j++;`, `src/Ema.cpp:2569-2571`, `2606-2608`, `2649-2651`, `2686-2688`.
The table is read before `j` is compared with `M`; `mem` is the whole array and `off` the start of the
row. -/
def seek (mem : List Rat) (off M : Nat) (x : Rat) : Nat → Nat → Option Nat
  | 0, _ => none
  | fuel + 1, j =>
    mem[off + j]?.bind fun k => if x > k ∧ j < M then seek mem off M x fuel (j + 1) else some j

/-- `(yp[j] - yp[j-1]) * (xi - xp[j-1]) / (xp[j] - xp[j-1]) + yp[j-1]`, `src/Ema.cpp:2580`, `2617`. -/
def middle (x0 y0 x1 y1 x : Rat) : Rat := (y1 - y0) * (x - x0) / (x1 - x0) + y0

/-- `yp[a] + (y1 - y0) / (x1 - x0) * (xi - xp[a])`, `src/Ema.cpp:2574-2575`, `2585-2586`. -/
def slope (x0 y0 x1 y1 xa ya x : Rat) : Rat := ya + (y1 - y0) / (x1 - x0) * (x - xa)

/-- One row of `mat_interp_extrap` (`src/Ema.cpp:2547-2624`) and of `mat_interp` (`2626-2706`, where the
table starts at 0 for every row). -/
def interpAt (clip : Bool) (xp yp : List Rat) (off M : Nat) (x : Rat) : Option Rat :=
  xp[off]?.bind fun x0 => yp[off]?.bind fun y0 =>
    if x > x0 then
      (seek xp off M x (M + 1) 1).bind fun j =>
        if j = M then
          yp[off + (M - 1)]?.bind fun yl =>
            if clip then some yl
            else xp[off + (M - 1)]?.bind fun xl => xp[off + (M - 2)]?.bind fun xk =>
              yp[off + (M - 2)]?.map fun yk => slope xk yk xl yl xl yl x
        else
          xp[off + j]?.bind fun xj => yp[off + j]?.bind fun yj => xp[off + (j - 1)]?.bind fun xi =>
            yp[off + (j - 1)]?.map fun yi => middle xi yi xj yj x
    else if clip then some y0
    else xp[off + 1]?.bind fun x1 => yp[off + 1]?.map fun y1 => slope x0 y0 x1 y1 x0 y0 x

/-- `InterpExtrap2d` after its checks, `src/Ema.cpp:2835-2880`, with the callback `InterpolateExtrap`
(`2727-2760`): row `i` uses the table row `i` when the tables have two dimensions (`two`), else the only
one.  `xs` holds the memory from the first item on; its stride is not looked at.  `none` in the result is
NaN. -/
def interp (clip two : Bool) (xs : List (Option Rat)) (xp yp : List Rat) (N M : Nat)
    (par : Option (List Nat)) : Option (List (Option (Option Rat))) :=
  (elemWork (fun i => xs[i]?.bind fun x =>
    match x with
    | none => some none
    | some x => (interpAt clip xp yp (if two then i * M else 0) M x).map some) N par).bind (runWrites N)

end Riptide.Ema
