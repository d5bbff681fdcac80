import Verif.Reduce.Sum
/-! # Model of the variance and standard deviation reductions, `src/Reduce.cpp`

Doubles are rational numbers here (`none` is NaN): the rounding of the squared deviations, of their sum and of the two divisions is
left out, and so are infinities.  What is kept is the order of the work, the invalid values, the number of values and the copy of
the sum in `resultOutInt64`. -/
namespace Riptide.Reduce
open Riptide.Work

/-- A double which is NaN (`none`) or a number; the type of `stScatterGatherFunc::resultOut`, `src/Reduce.cpp:375`. -/
abbrev Q := Option Rat

/-- `a + b` and `riptide::add<double>`, `src/operations.h:38-47`. -/
def addQ (a b : Q) : Q := a.bind fun x => b.map fun y => x + y

/-- `temp * temp` for `temp = (double)pIn[i] - mean`, `src/Reduce.cpp:2763-2764`. -/
def sqDev (mean x : Q) : Q := mean.bind fun m => x.map fun y => (y - m) * (y - m)

/-- `(int64_t)d` for a number: towards zero; undefined out of the range, an arbitrary number `junk` (`src/Reduce.cpp:2891`). -/
def truncQ (junk : Int) (q : Rat) : Int :=
  if IT.i64.InRange (q.num.tdiv q.den) then q.num.tdiv q.den else junk

/-- `riptide::cast<int64_t>`, `src/operations.h:5-14`. -/
def rcastQ (junk : Int) : Q → Int
  | none => IT.i64.inv
  | some q => truncQ junk q

/-- The accumulator of a core, `stScatterGatherFunc`, `src/Reduce.cpp:361-381`. -/
structure VAcc where
  lenOut : Nat
  res : Q
  i64 : Int

/-- `memset(pWorkSpace, 0, …)`, `src/Reduce.cpp:449`, and the reset before the second pass, lines 3226-3228. -/
def VAcc.zero : VAcc := ⟨0, some 0, 0⟩

/-- The loop of `ReduceVar`, `src/Reduce.cpp:2756-2765`: it stops with NaN at an invalid value. -/
def varLoop (mean : Q) (r : Q) : List Q → Q
  | [] => r
  | none :: _ => none
  | some x :: xs => varLoop mean (addQ r (sqDev mean (some x))) xs

/-- `ReduceVar`, `src/Reduce.cpp:2747-2770`. -/
def varBlock (junk : Int) (mean : Q) (a : VAcc) (l : List Q) : VAcc :=
  let res := addQ a.res (varLoop mean (some 0) l)
  ⟨a.lenOut + l.length, res, rcastQ junk res⟩

/-- The sum of squares of `ReduceVarF32`, `src/Reduce.cpp:2783-2818`: four lanes, which are added up, then the rest. -/
def f32Sum (ds : List Q) : Q :=
  if 4 ≤ ds.length then
    let v := vecLoop addQ 4 (List.replicate 4 (some 0)) ds
    match v.1 with
    | [] => some 0
    | t0 :: ts => v.2.foldl addQ (ts.foldl addQ t0)
  else ds.foldl addQ (some 0)

/-- `ReduceVarF32`, `src/Reduce.cpp:2773-2823`: `resultOutInt64` is left alone. -/
def varBlockF32 (mean : Q) (a : VAcc) (l : List Q) : VAcc :=
  ⟨a.lenOut + l.length, addQ a.res (f32Sum (l.map (sqDev mean))), a.i64⟩

/-- The result of `ReduceNanVariance::non_vector`, `src/Reduce.cpp:2877-2886`: the squares of the valid values. -/
def nanVarSum (mean : Q) (l : List Q) : Q :=
  (l.filter Option.isSome).foldl (fun (r x : Q) => addQ r (sqDev mean x)) (some 0)

/-- `ReduceNanVariance::non_vector`, `src/Reduce.cpp:2869-2893`. -/
def nanVarBlock (junk : Int) (mean : Q) (a : VAcc) (l : List Q) : VAcc :=
  let r := nanVarSum mean l
  ⟨a.lenOut + (l.filter Option.isSome).length, addQ a.res r,
    IT.i64.wrap (a.i64 + match r with | none => junk | some q => truncQ junk q)⟩

/-- Gathering, `src/Reduce.cpp:540-558`. -/
def gatherVar (t c : VAcc) : VAcc :=
  let res := addQ t.res c.res
  let i := addI t.i64 c.i64
  if res = none then ⟨t.lenOut + c.lenOut, none, IT.i64.inv⟩
  else if i = IT.i64.inv then ⟨t.lenOut + c.lenOut, none, i⟩
  else ⟨t.lenOut + c.lenOut, res, i⟩

/-- `WorkScatterGatherCall`, `src/Reduce.cpp:420-562`. -/
def varScatter (blk : VAcc → List Q → VAcc) (xs : List Q) (par : Option (List (List Nat))) : VAcc :=
  match par with
  | none => blk .zero xs
  | some cores =>
    (cores.map fun (bs : List Nat) => bs.foldl (fun a b => blk a (blockElems xs b)) VAcc.zero).foldl
      gatherVar .zero

/-- The final steps, `src/Reduce.cpp:3237-3253`: NaN if there are not more values than `ddof`. -/
def finishVar (ddof : Int) (a : VAcc) : Q :=
  if ddof < (a.lenOut : Int) then a.res.map fun s => s / (((a.lenOut : Int) - ddof : Int) : Rat) else none

/-- `meanCalculation`, `src/Reduce.cpp:3206-3220`. -/
def meanQ (a : SAcc) : Q := (meanOf a).1.map fun n => (n : Rat) / ((meanOf a).2 : Rat)

/-- `(double)pIn[i]` for an integer, NaN for the invalid one (`src/Reduce.cpp:2758-2763`). -/
def intQ (t : IT) (x : Int) : Q := if x = t.inv then none else some (rnd x)

/-- `ReduceInternal` for `REDUCE_VAR` on integers, `src/Reduce.cpp:3199-3253`; the passes have schedules of their own. -/
def reduceVarInt (junk : Int) (t : IT) (xs : List Int) (ddof : Int) (par1 par2 : Option (List (List Nat))) : Q :=
  finishVar ddof (varScatter (varBlock junk (meanQ (sumScatter (intBlock junk t) xs par1))) (xs.map (intQ t)) par2)

/-- `ReduceInternal` for `REDUCE_NANVAR` on integers, `src/Reduce.cpp:3199-3253`. -/
def reduceNanVarInt (junk : Int) (t : IT) (xs : List Int) (ddof : Int) (par1 par2 : Option (List (List Nat))) : Q :=
  finishVar ddof (varScatter (nanVarBlock junk
    (meanQ (sumScatter (nanSumBlock junk fun x => if x = t.inv then none else some x) xs par1))) (xs.map (intQ t)) par2)

/-- `ReduceInternal` for `REDUCE_VAR` on floats and doubles holding integers, `src/Reduce.cpp:3199-3253`; `f32` chooses the kernel
of line 2833. -/
def reduceVarFlt (junk : Int) (f32 : Bool) (xs : List Dbl) (ddof : Int) (par1 par2 : Option (List (List Nat))) : Q :=
  let mean := meanQ (sumScatter (fltBlock junk) xs par1)
  let ys : List Q := xs.map fun (x : Dbl) => x.map fun (n : Int) => (n : Rat)
  finishVar ddof (varScatter (if f32 then varBlockF32 mean else varBlock junk mean) ys par2)

/-- `ReduceInternal` for `REDUCE_NANVAR` on floats holding integers, `src/Reduce.cpp:3199-3253`. -/
def reduceNanVarFlt (junk : Int) (xs : List Dbl) (ddof : Int) (par1 par2 : Option (List (List Nat))) : Q :=
  finishVar ddof (varScatter (nanVarBlock junk (meanQ (sumScatter (nanSumBlock junk id) xs par1)))
    (xs.map fun (x : Dbl) => x.map fun (n : Int) => (n : Rat)) par2)

/-- What a function number of `Reduce.h:6-35` makes `ReduceInternal` do with floats-valued results. -/
inductive Stage
  | mean
  | var
  | std
  deriving DecidableEq, Repr

/-- The numbers known to `GetReduceFuncPtr`, `src/Reduce.cpp:3079-3120`, between 100 and `REDUCE_MIN`. -/
def knownFunc (func : Nat) : Bool := [102, 103, 106, 107, 108, 109].contains func

/-- The steps chosen by `ReduceInternal`, `src/Reduce.cpp:3199-3253`: whether invalid values are skipped (`func & 1`) and how far the
calculation goes; `none` when it is left to numpy. -/
def stagesOf (func : Nat) : Option (Bool × Stage) :=
  if 100 ≤ func ∧ func < 200 then
    if knownFunc func then
      some (func % 2 == 1, if 103 < func then (if func - func % 2 = 108 then .std else .var) else .mean)
    else none
  else none

end Riptide.Reduce
