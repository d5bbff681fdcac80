import Verif.Reduce.Model
/-! # Model of sum and mean reductions, `src/Reduce.cpp` -/
namespace Riptide.Reduce
open Riptide.Work

/-- The double nearest to an integer (ties to even), as an integer. -/
def rnd (n : Int) : Int := FT.f64.trunc (FT.f64.ofInt n)

/-- `a + b` for doubles holding integers.  Infinities are not modelled: sums of fewer than `2^900`
values of 64 bits stay finite. -/
def rAdd (a b : Int) : Int := rnd (a + b)

/-- A double holding an integer, or NaN (`none`). -/
abbrev Dbl := Option Int

/-- `a + b`, and `riptide::add<double>`, `src/operations.h:38-47`, on such doubles: NaN if an operand
is NaN. -/
def addD (a b : Dbl) : Dbl := a.bind fun x => b.map fun y => rAdd x y

/-- `riptide::add<int64_t>`, `src/operations.h:38-47`; signed overflow is taken as wrapping. -/
def addI (a b : Int) : Int :=
  if a = IT.i64.inv ∨ b = IT.i64.inv then IT.i64.inv else IT.i64.wrap (a + b)

/-- `static_cast<int64_t>(d)`.  Undefined behaviour for NaN and for values out of range: an
arbitrary number `junk` here (`INT64_MIN` on x86-64). -/
def castI64 (junk : Int) : Dbl → Int
  | none => junk
  | some n => if IT.i64.InRange n then n else junk

/-- `riptide::cast<int64_t>(double)`, `src/operations.h:5-14`. -/
def rcastI64 (junk : Int) : Dbl → Int
  | none => IT.i64.inv
  | some n => castI64 junk (some n)

/-- The accumulator of a core for sums, `stScatterGatherFunc`, `src/Reduce.cpp:361-381`. -/
structure SAcc where
  lenOut : Nat
  res : Dbl
  i64 : Int
  deriving DecidableEq

/-- `memset(pWorkSpace, 0, …)`, `src/Reduce.cpp:449`; `sgFunc` on line 3188. -/
def SAcc.zero : SAcc := ⟨0, some 0, 0⟩

/-- The loop of `ReduceAddSlow`, `src/Reduce.cpp:2188-2200`: stop with NaN at an invalid value. -/
def slowLoop (inv : Int) (r : Int) : List Int → Dbl
  | [] => some r
  | x :: xs => if x = inv then none else slowLoop inv (rAdd r (rnd x)) xs

/-- `ReduceAddSlow<T>`, `src/Reduce.cpp:2177-2209` (8, 16 and 64-bit integers, `uint32_t`). -/
def slowBlock (junk : Int) (t : IT) (a : SAcc) (l : List Int) : SAcc :=
  let res := addD a.res (slowLoop t.inv 0 l)
  ⟨a.lenOut + l.length, res, rcastI64 junk res⟩

/-- The vector loop, the winding down and the tail common to `ReduceAddI32`, `ReduceAddF32` and
`ReduceAddD64`, `src/Reduce.cpp:2285-2327`: 32 partial sums in 8 registers of 4 doubles. -/
def vecSum {α : Type} (zero : α) (add : α → α → α) (l : List α) : α :=
  if 32 ≤ l.length then
    let r := vecLoop add 32 (List.replicate 32 zero) l
    match windDown add 4 r.1 with
    | [] => zero
    | t0 :: ts => r.2.foldl add (ts.foldl add t0)
  else l.foldl add zero

/-- `ReduceAddI32`, `src/Reduce.cpp:2271-2333`. -/
def i32Block (junk : Int) (a : SAcc) (l : List Int) : SAcc :=
  if containsInvalid (dom false (.int .i32)) 8 l then ⟨a.lenOut + l.length, none, IT.i64.inv⟩
  else
    let r := vecSum 0 rAdd l
    ⟨a.lenOut + l.length, addD a.res (some r), addI a.i64 (castI64 junk (some r))⟩

/-- `ReduceAddF32`, `ReduceAddD64`, `src/Reduce.cpp:2212-2267`, 2343-2401, on floats that hold
integers or NaN. -/
def fltBlock (junk : Int) (a : SAcc) (l : List Dbl) : SAcc :=
  let r := vecSum (some 0) addD l
  ⟨a.lenOut + l.length, addD a.res r, IT.i64.wrap (a.i64 + castI64 junk r)⟩

/-- `ReduceNanSum::non_vector`, `src/Reduce.cpp:2614-2640`; `valid` gives the number of a valid
element. -/
def nanSumBlock {α : Type} (junk : Int) (valid : α → Option Int) (a : SAcc) (l : List α) : SAcc :=
  let vs := l.filterMap valid
  let r := vs.foldl (fun r x => rAdd r (rnd x)) 0
  ⟨a.lenOut + vs.length, addD a.res (some r), IT.i64.wrap (a.i64 + castI64 junk (some r))⟩

/-- Gathering sums, `src/Reduce.cpp:540-558`. -/
def gatherSum (t c : SAcc) : SAcc :=
  let res := addD t.res c.res
  let i := addI t.i64 c.i64
  if res = none then ⟨t.lenOut + c.lenOut, res, IT.i64.inv⟩
  else if i = IT.i64.inv then ⟨t.lenOut + c.lenOut, none, i⟩
  else ⟨t.lenOut + c.lenOut, res, i⟩

/-- `WorkScatterGatherCall` for sums, `src/Reduce.cpp:420-562`. -/
def sumScatter {α : Type} (blk : SAcc → List α → SAcc) (xs : List α)
    (par : Option (List (List Nat))) : SAcc :=
  match par with
  | none => blk .zero xs
  | some cores =>
    (cores.map fun (bs : List Nat) => bs.foldl (fun a b => blk a (blockElems xs b)) SAcc.zero).foldl
      gatherSum .zero

/-- The value returned to Python. -/
inductive PyNum
  | int (n : Int)
  | float (d : Dbl)
  deriving DecidableEq

/-- The block function chosen for integers by `ReduceSum::GetScatterGatherFuncPtr`,
`src/Reduce.cpp:2570-2608`. -/
def intBlock (junk : Int) (t : IT) : SAcc → List Int → SAcc :=
  if t = .i32 then i32Block junk else slowBlock junk t

/-- The value returned for integer sums, `src/Reduce.cpp:3250-3276`: a float when a 64-bit sum
leaves the range, else `resultOutInt64`. -/
def sumReturn (t : IT) (a : SAcc) : PyNum :=
  if t = .i64 then
    if (match a.res with | none => false | some n => decide (n > 9223372036854775808 ∨ n < -9223372036854775808))
    then .float a.res else .int a.i64
  else if t = .u64 then
    if (match a.res with | none => false | some n => decide (n > 18446744073709551616)) then .float a.res
    else .int (if a.i64 = IT.i64.inv then IT.u64.inv else IT.u64.wrap a.i64)
  else .int a.i64

/-- `ReduceInternal` for `REDUCE_SUM` on integers. -/
def reduceSumInt (junk : Int) (t : IT) (xs : List Int) (par : Option (List (List Nat))) : PyNum :=
  sumReturn t (sumScatter (intBlock junk t) xs par)

/-- `ReduceInternal` for `REDUCE_NANSUM` on integers. -/
def reduceNanSumInt (junk : Int) (t : IT) (xs : List Int) (par : Option (List (List Nat))) : PyNum :=
  sumReturn t (sumScatter (nanSumBlock junk fun x => if x = t.inv then none else some x) xs par)

/-- `ReduceInternal` for `REDUCE_SUM` on floats. -/
def reduceSumFlt (junk : Int) (xs : List Dbl) (par : Option (List (List Nat))) : Dbl :=
  (sumScatter (fltBlock junk) xs par).res

/-- `ReduceInternal` for `REDUCE_MEAN`/`REDUCE_NANMEAN`, `src/Reduce.cpp:3200-3220`: the dividend and
the divisor of the final floating-point division; `0 / 1` when nothing was summed. -/
def meanOf (a : SAcc) : Dbl × Nat := if 0 < a.lenOut then (a.res, a.lenOut) else (some 0, 1)

end Riptide.Reduce
