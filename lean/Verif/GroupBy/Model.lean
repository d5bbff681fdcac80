import Verif.Work.Cores
import Verif.GroupBy.Val
import Verif.Common.Num
/-! # Group aggregates: `src/GroupBy.cpp`

A row is a pair (key, value).  The arrays `pOut`, `pCountOut` and `pDataTmp` of one call are one list
of cells; `pDataTmp[index - binLow]` is the `tmp` field of cell `index`.  `none` inside a cell is memory that was
never written; arithmetic on it gives such a value again.  `none` at the top level is undefined
behaviour (an access outside the arrays).  `binLow` and `binHigh` are natural numbers.  Interruption
by the user is not modelled (the operation then raises an exception). -/
namespace Riptide.GroupBy
open Riptide.Work

/-- Operations of the column type `T` and output type `U` used by the accumulators. -/
structure Arith (T U : Type) where
  /-- `invalid_for_type<T>::is_valid` -/
  valid : T → Bool
  /-- `invalid_for_type<U>::value` -/
  inv : U
  /-- `invalid_for_type<U>::is_valid` -/
  validU : U → Bool
  /-- `U{}`: what `memset(…, 0, …)` stores -/
  zero : U
  /-- `+` on `U` -/
  add : U → U → U
  /-- `(U)x` -/
  cast : T → U
  /-- `x / (U)count` -/
  div : U → Int → U

/-- The double-precision side of the float32 accumulators. -/
structure Wide (T U D : Type) where
  zero : D
  add : D → D → D
  /-- `(double)x` -/
  up : T → D
  /-- `static_cast<float>(x)` -/
  down : D → U
  /-- `x / (double)count` -/
  div : D → Int → D
  /-- `invalid_for_type<double>::value` -/
  inv : D

/-- Element `i` of `pOut`, `pCountOut` and the temporary array. -/
structure Cell (U D : Type) where
  out : Option U
  cnt : Int
  tmp : Option D
  deriving DecidableEq, Repr

/-- The arrays of one call. -/
abbrev Mem (U D : Type) := List (Cell U D)

variable {T U D : Type}

/-! ## Loops -/

/-- A loop over the bins `[lo, hi)`, or a `memset` of that range.  (A `memset` with `hi < lo` has a
negative size.) -/
def forBins (f : Cell U D → Cell U D) (lo hi : Nat) (m : Mem U D) : Option (Mem U D) :=
  if lo ≤ hi ∧ hi ≤ m.length then
    some (m.mapIdx fun i c => if lo ≤ i ∧ i < hi then f c else c)
  else none

/-- `if (pass <= 0)` clear the range. -/
def clearBins (pass : Int) (f : Cell U D → Cell U D) (lo hi : Nat) (m : Mem U D) :
    Option (Mem U D) := if pass ≤ 0 then forBins f lo hi m else some m

/-- `if (pass < 0)` run the final loop over the range. -/
def finishBins (pass : Int) (f : Cell U D → Cell U D) (lo hi : Nat) (m : Mem U D) :
    Option (Mem U D) := if pass < 0 then forBins f lo hi m else some m

/-- `ACCUM_INNER_LOOP`, `src/GroupBy.cpp:196`: the row updates the cell of its key if the key is in
`[lo, hi)`. -/
def rowStep (f : T → Cell U D → Cell U D) (lo hi : Nat) (m : Mem U D) (r : Int × T) :
    Option (Mem U D) :=
  if (lo : Int) ≤ r.1 ∧ r.1 < (hi : Int) then
    if r.1 < (m.length : Int) then some (m.modify r.1.toNat (f r.2)) else none
  else some m

/-- The loop over the rows. -/
def rowLoop (f : T → Cell U D → Cell U D) (lo hi : Nat) (rows : List (Int × T)) (m : Mem U D) :
    Option (Mem U D) := rows.foldlM (rowStep f lo hi) m

/-- Copying the double accumulators to the output, `src/GroupBy.cpp:316-348`, 419-440, 767-796,
908-927: all bins if there are fewer bins than rows, else the bins of the rows. -/
def copyOut (f : Cell U D → Cell U D) (lo hi : Nat) (rows : List (Int × T)) (m : Mem U D) :
    Option (Mem U D) :=
  if hi - lo < rows.length then forBins f lo hi m else rowLoop (fun _ => f) lo hi rows m

/-! ## Sums -/

/-- `pOut[index] += (U)temp` on memory that may hold garbage. -/
def plus (add : U → U → U) (o : Option U) (x : U) : Option U := o.map fun v => add v x

/-- `AccumSum`, the loop body, `src/GroupBy.cpp:239-262`. -/
def sumRow (A : Arith T U) (x : T) (c : Cell U D) : Cell U D :=
  if 0 ≤ c.cnt then
    if A.valid x then { c with out := plus A.add c.out (A.cast x) }
    else { c with out := some A.inv, cnt := -1 }
  else c

/-- `AccumSum`, `src/GroupBy.cpp:222-264`. -/
def accumSum (A : Arith T U) (lo hi : Nat) (pass : Int) (rows : List (Int × T)) (m : Mem U D) :
    Option (Mem U D) :=
  (clearBins pass (fun c => { c with out := some A.zero }) lo hi m).bind
    (rowLoop (sumRow A) lo hi rows)

/-- `AccumNanSum`, the loop body, `src/GroupBy.cpp:365-378`. -/
def nanSumRow (A : Arith T U) (x : T) (c : Cell U D) : Cell U D :=
  if A.valid x then { c with out := plus A.add c.out (A.cast x) } else c

/-- `AccumNanSum`, `src/GroupBy.cpp:352-380`. -/
def accumNanSum (A : Arith T U) (lo hi : Nat) (pass : Int) (rows : List (Int × T)) (m : Mem U D) :
    Option (Mem U D) :=
  (clearBins pass (fun c => { c with out := some A.zero }) lo hi m).bind
    (rowLoop (nanSumRow A) lo hi rows)

/-- `AccumSumFloat`, the loop body, `src/GroupBy.cpp:289-311`. -/
def sumRowF (A : Arith T U) (W : Wide T U D) (x : T) (c : Cell U D) : Cell U D :=
  if 0 ≤ c.cnt then
    if A.valid x then { c with tmp := plus W.add c.tmp (W.up x) } else { c with cnt := -1 }
  else c

/-- `AccumSumFloat`, copying, `src/GroupBy.cpp:320-327`. -/
def sumCopyF (A : Arith T U) (W : Wide T U D) (c : Cell U D) : Cell U D :=
  if 0 ≤ c.cnt then { c with out := c.tmp.map W.down } else { c with out := some A.inv }

/-- `AccumSumFloat`, `src/GroupBy.cpp:268-349`. -/
def accumSumFloat (A : Arith T U) (W : Wide T U D) (lo hi : Nat) (pass : Int)
    (rows : List (Int × T)) (m : Mem U D) : Option (Mem U D) :=
  (((clearBins pass (fun c => { c with out := some A.zero }) lo hi m).bind
    (clearBins pass (fun c => { c with tmp := some W.zero }) lo hi)).bind
    (rowLoop (sumRowF A W) lo hi rows)).bind (copyOut (sumCopyF A W) lo hi rows)

/-- `AccumNanSumFloat`, the loop body, `src/GroupBy.cpp:402-415`. -/
def nanSumRowF (A : Arith T U) (W : Wide T U D) (x : T) (c : Cell U D) : Cell U D :=
  if A.valid x then { c with tmp := plus W.add c.tmp (W.up x) } else c

/-- Copying an accumulator, `src/GroupBy.cpp:424`, 436. -/
def nanCopyF (W : Wide T U D) (c : Cell U D) : Cell U D := { c with out := c.tmp.map W.down }

/-- `AccumNanSumFloat`, `src/GroupBy.cpp:385-441`.  Line 398 clears `pOut[0 … binHigh - binLow)`
instead of `pOut[binLow … binHigh)`. -/
def accumNanSumFloat (A : Arith T U) (W : Wide T U D) (lo hi : Nat) (pass : Int)
    (rows : List (Int × T)) (m : Mem U D) : Option (Mem U D) :=
  (((clearBins pass (fun c => { c with out := some A.zero }) 0 (hi - lo) m).bind
    (clearBins pass (fun c => { c with tmp := some W.zero }) lo hi)).bind
    (rowLoop (nanSumRowF A W) lo hi rows)).bind (copyOut (nanCopyF W) lo hi rows)

/-! ## Minimum and maximum -/

/-- Validity and comparison of the element type; `better` is `<` for the minimum and `>` for the
maximum. -/
structure Ord (T : Type) where
  valid : T → Bool
  inv : T
  better : T → T → Bool

/-- `x` replaces the current value if it is better; the comparison with memory that was never written
gives garbage. -/
def pick (O : Ord T) (x : T) (o : Option T) : Option T :=
  o.map fun v => if O.better x v then x else v

/-- `AccumMin`, `AccumMax`, the loop body, `src/GroupBy.cpp:464-499`, 564-600. -/
def minRow (O : Ord T) (x : T) (c : Cell T D) : Cell T D :=
  if 0 ≤ c.cnt then
    if !O.valid x then { c with out := some O.inv, cnt := -1 }
    else if c.cnt = 0 then { c with out := some x, cnt := 1 }
    else { c with out := pick O x c.out }
  else c

/-- `AccumMin`, `src/GroupBy.cpp:444-501`; `AccumMax`, 546-602. -/
def accumMin (O : Ord T) (lo hi : Nat) (pass : Int) (rows : List (Int × T)) (m : Mem T D) :
    Option (Mem T D) :=
  (clearBins pass (fun c => { c with out := some O.inv }) lo hi m).bind
    (rowLoop (minRow O) lo hi rows)

/-- `(! is_valid(cur)) || better(x, cur)`. -/
def nanPick (O : Ord T) (x : T) (o : Option T) : Option T :=
  o.map fun v => if !O.valid v || O.better x v then x else v

/-- `AccumNanMin`, `AccumNanMax`, the loop body, `src/GroupBy.cpp:523-541`, 623-641. -/
def nanMinRow (O : Ord T) (x : T) (c : Cell T D) : Cell T D :=
  if O.valid x then { c with out := nanPick O x c.out } else c

/-- `AccumNanMin`, `src/GroupBy.cpp:504-543`; `AccumNanMax`, 605-643. -/
def accumNanMin (O : Ord T) (lo hi : Nat) (pass : Int) (rows : List (Int × T)) (m : Mem T D) :
    Option (Mem T D) :=
  (clearBins pass (fun c => { c with out := some O.inv }) lo hi m).bind
    (rowLoop (nanMinRow O) lo hi rows)

/-! ## Means -/

/-- `AccumMean`, the loop body, `src/GroupBy.cpp:664-688`. -/
def meanRow (A : Arith T U) (x : T) (c : Cell U D) : Cell U D :=
  if 0 ≤ c.cnt then
    if !A.valid x then { c with out := some A.inv, cnt := -1 }
    else { c with out := plus A.add c.out (A.cast x), cnt := c.cnt + 1 }
  else c

/-- The final loop of the means, `src/GroupBy.cpp:691-704`, 849-862. -/
def meanFin (A : Arith T U) (c : Cell U D) : Cell U D :=
  if 0 < c.cnt then { c with out := c.out.map fun v => A.div v c.cnt }
  else { c with out := some A.inv }

/-- `AccumMean`, `src/GroupBy.cpp:646-705`. -/
def accumMean (A : Arith T U) (lo hi : Nat) (pass : Int) (rows : List (Int × T)) (m : Mem U D) :
    Option (Mem U D) :=
  ((clearBins pass (fun c => { c with out := some A.zero }) lo hi m).bind
    (rowLoop (meanRow A) lo hi rows)).bind (finishBins pass (meanFin A) lo hi)

/-- `AccumNanMean`, the loop body, `src/GroupBy.cpp:831-845`. -/
def nanMeanRow (A : Arith T U) (x : T) (c : Cell U D) : Cell U D :=
  if A.valid x then { c with out := plus A.add c.out (A.cast x), cnt := c.cnt + 1 } else c

/-- `AccumNanMean`, `src/GroupBy.cpp:815-863`. -/
def accumNanMean (A : Arith T U) (lo hi : Nat) (pass : Int) (rows : List (Int × T)) (m : Mem U D) :
    Option (Mem U D) :=
  ((clearBins pass (fun c => { c with out := some A.zero }) lo hi m).bind
    (rowLoop (nanMeanRow A) lo hi rows)).bind (finishBins pass (meanFin A) lo hi)

/-- `AccumMeanFloat`, the loop body, `src/GroupBy.cpp:735-760`. -/
def meanRowF (A : Arith T U) (W : Wide T U D) (x : T) (c : Cell U D) : Cell U D :=
  if 0 ≤ c.cnt then
    if !A.valid x then { c with tmp := some W.inv, cnt := -1 }
    else { c with tmp := plus W.add c.tmp (W.up x), cnt := c.cnt + 1 }
  else c

/-- The final loop of the float32 means, `src/GroupBy.cpp:799-811`, 930-943. -/
def meanFinF (A : Arith T U) (W : Wide T U D) (c : Cell U D) : Cell U D :=
  if 0 < c.cnt then { c with out := c.tmp.map fun v => W.down (W.div v c.cnt) }
  else { c with out := some A.inv }

/-- `AccumMeanFloat`, `src/GroupBy.cpp:709-812`. -/
def accumMeanFloat (A : Arith T U) (W : Wide T U D) (lo hi : Nat) (pass : Int)
    (rows : List (Int × T)) (m : Mem U D) : Option (Mem U D) :=
  ((((clearBins pass (fun c => { c with out := some A.zero }) lo hi m).bind
    (clearBins pass (fun c => { c with tmp := some W.zero }) lo hi)).bind
    (rowLoop (meanRowF A W) lo hi rows)).bind (copyOut (sumCopyF A W) lo hi rows)).bind
    (finishBins pass (meanFinF A W) lo hi)

/-- `AccumNanMeanFloat`, the loop body, `src/GroupBy.cpp:887-901`. -/
def nanMeanRowF (A : Arith T U) (W : Wide T U D) (x : T) (c : Cell U D) : Cell U D :=
  if A.valid x then { c with tmp := plus W.add c.tmp (W.up x), cnt := c.cnt + 1 } else c

/-- `AccumNanMeanFloat`, `src/GroupBy.cpp:866-944`.  Line 883 clears `pOut[0 … binHigh - binLow)`
instead of `pOut[binLow … binHigh)`. -/
def accumNanMeanFloat (A : Arith T U) (W : Wide T U D) (lo hi : Nat) (pass : Int)
    (rows : List (Int × T)) (m : Mem U D) : Option (Mem U D) :=
  ((((clearBins pass (fun c => { c with out := some A.zero }) 0 (hi - lo) m).bind
    (clearBins pass (fun c => { c with tmp := some W.zero }) lo hi)).bind
    (rowLoop (nanMeanRowF A W) lo hi rows)).bind (copyOut (nanCopyF W) lo hi rows)).bind
    (finishBins pass (meanFinF A W) lo hi)

/-! ## Running an accumulator -/

/-- An accumulator with its bin range fixed: `GROUPBY_TWO_FUNC`. -/
abbrev Kernel (T U D : Type) := Int → List (Int × T) → Mem U D → Option (Mem U D)

/-- Fresh arrays of `n` bins: outputs and temporaries uninitialised, counts zero
(`src/GroupBy.cpp:4450-4486`, 4765-4800). -/
def fresh (n : Nat) : Mem U D := List.replicate n ⟨none, 0, none⟩

/-- `GroupByCall`, `src/GroupBy.cpp:4098-4180`: one call over all rows with `pass = -1`. -/
def sequential (k : Kernel T U D) (uniq : Nat) (rows : List (Int × T)) : Option (List (Option U)) :=
  (k (-1) rows (fresh uniq)).map fun m => m.map Cell.out

/-- One block taken by a core, `src/GroupBy.cpp:4074-4090`. -/
def blockStep (k : Kernel T U D) (rows : List (Int × T)) (m : Mem U D) (b : Nat × Nat) :
    Option (Mem U D) := k (b.2 : Int) (blockElems rows b.1) m

/-- `ScatterGroupByCall`, `src/GroupBy.cpp:4039-4091`: the blocks of one core, in order, with
`pass = 0, 1, …`. -/
def coreRun (k : Kernel T U D) (uniq : Nat) (rows : List (Int × T)) (blocks : List Nat) :
    Option (Mem U D) := blocks.zipIdx.foldlM (blockStep k rows) (fresh uniq)

/-- The arrays of one core after the scatter phase, with `didWork`. -/
structure Core (U D : Type) where
  didWork : Bool
  mem : Mem U D

/-- A core's part in the scatter phase. -/
def scatterCore (k : Kernel T U D) (uniq : Nat) (rows : List (Int × T)) (blocks : List Nat) :
    Option (Core U D) := (coreRun k uniq rows blocks).map fun m => ⟨!blocks.isEmpty, m⟩

/-- The state of a gather function for one bin: `pDataOut[i]`, `pInvFinal[i]` (which is
`pCountOut[i]` of core 0) and `pTotalCountOut[i]`. -/
structure Gat (U : Type) where
  out : Option U
  inv : Int
  total : Int
  deriving DecidableEq, Repr

/-- The count of core `j`, which for core 0 is the cell `pInvFinal[i]`. -/
def cntOf (j : Nat) (g : Gat U) (c : Cell U D) : Int := if j = 0 then g.inv else c.cnt

/-- `+=` of two cells. -/
def plusO (add : U → U → U) (a b : Option U) : Option U := a.bind fun x => b.map fun y => add x y

/-- `GatherSum`, `src/GroupBy.cpp:2526-2551`, for one bin and core `j`. -/
def gatherSum (A : Arith T U) (j : Nat) (g : Gat U) (c : Cell U D) : Gat U :=
  if g.inv = -1 then (if j = 0 then { g with out := some A.inv } else g)
  else if cntOf j g c = -1 then { g with out := some A.inv, inv := -1 }
  else { g with out := plusO A.add g.out c.out }

/-- `GatherNanSum`, `src/GroupBy.cpp:2563-2576`. -/
def gatherNanSum (A : Arith T U) (_j : Nat) (g : Gat U) (c : Cell U D) : Gat U :=
  { g with out := plusO A.add g.out c.out }

/-- `GatherMean`, `src/GroupBy.cpp:2596-2626`. -/
def gatherMean (A : Arith T U) (j : Nat) (g : Gat U) (c : Cell U D) : Gat U :=
  if g.inv = -1 then (if j = 0 then { g with out := some A.inv } else g)
  else if cntOf j g c = -1 then { g with out := some A.inv, inv := -1 }
  else { g with out := plusO A.add g.out c.out, total := g.total + cntOf j g c }

/-- The end of `GatherMean`, `src/GroupBy.cpp:2628-2639`. -/
def gatherMeanFin (A : Arith T U) (g : Gat U) : Option U :=
  g.out.map fun v => if 0 < g.total ∧ A.validU v = true then A.div v g.total else A.inv

/-- `GatherNanMean`, `src/GroupBy.cpp:2657-2671`. -/
def gatherNanMean (A : Arith T U) (_j : Nat) (g : Gat U) (c : Cell U D) : Gat U :=
  { g with out := plusO A.add g.out c.out, total := g.total + c.cnt }

/-- The end of `GatherNanMean`, `src/GroupBy.cpp:2673-2684`. -/
def gatherNanMeanFin (A : Arith T U) (g : Gat U) : Option U :=
  if 0 < g.total then g.out.map fun v => A.div v g.total else some A.inv

/-- `curValue`/`compareValue` of `GatherMin` on cells. -/
def pickO (O : Ord T) (cur cmp : Option T) : Option T := cmp.bind fun x => nanPick O x cur

/-- `GatherMin`, `src/GroupBy.cpp:2749-2792`; `GatherMax`, 2854-2897. -/
def gatherMin (O : Ord T) (j : Nat) (g : Gat T) (c : Cell T D) : Gat T :=
  if cntOf j g c = 0 ∨ g.inv = -1 then g
  else if cntOf j g c = -1 then { g with out := some O.inv, inv := -1 }
  else { g with out := pickO O g.out c.out }

/-- `is_valid(compareValue)` first; a cell that was never written gives garbage. -/
def nanPickO (O : Ord T) (cur cmp : Option T) : Option T :=
  cmp.bind fun x => if O.valid x then nanPick O x cur else cur

/-- `GatherNanMin`, `src/GroupBy.cpp:2704-2725`; `GatherNanMax`, 2809-2830. -/
def gatherNanMin (O : Ord T) (_j : Nat) (g : Gat T) (c : Cell T D) : Gat T :=
  { g with out := nanPickO O g.out c.out }

/-- One core's contribution to bin `b`, if it did any work. -/
def gatherCore (step : Nat → Gat U → Cell U D → Gat U) (b : Nat) (g : Gat U)
    (cj : Core U D × Nat) : Gat U :=
  if cj.1.didWork then
    match cj.1.mem[b]? with
    | none => g
    | some c => step cj.2 g c
  else g

/-- `pInvFinal[b]`: the count of core 0. -/
def inv0 (cores : List (Core U D)) (b : Nat) : Int :=
  match cores[0]? with
  | none => 0
  | some c => match c.mem[b]? with
    | none => 0
    | some d => d.cnt

/-- The gather functions for bin `b`: the loop over the cores, then the final step.  (In the code the loop over the
bins is inside the loop over the cores; bins do not interact.) -/
def gatherBin (start : Option U) (step : Nat → Gat U → Cell U D → Gat U) (fin : Gat U → Option U)
    (cores : List (Core U D)) (b : Nat) : Option U :=
  fin (cores.zipIdx.foldl (gatherCore step b) ⟨start, inv0 cores b, 0⟩)

/-- A gather function.  `start` is the value stored before gathering; for sums and means it is stored in all
bins (`memset` over `numUnique`), for minimum and maximum in the range only (`allBins = false`). -/
def gather (allBins : Bool) (start : U) (step : Nat → Gat U → Cell U D → Gat U)
    (fin : Gat U → Option U) (uniq lo hi : Nat) (cores : List (Core U D)) :
    Option (List (Option U)) :=
  if lo ≤ hi ∧ hi ≤ uniq then
    some ((List.range uniq).map fun b =>
      if lo ≤ b ∧ b < hi then gatherBin (some start) step fin cores b
      else if allBins then some start else none)
  else none

/-- An aggregate: its accumulator and its gather function. -/
structure Agg (T U D : Type) where
  kernel : Nat → Nat → Kernel T U D
  allBins : Bool
  start : U
  step : Nat → Gat U → Cell U D → Gat U
  fin : Gat U → Option U

/-- `GB_SUM`. -/
def aggSum (A : Arith T U) : Agg T U D := ⟨accumSum A, true, A.zero, gatherSum A, Gat.out⟩
/-- `GB_NANSUM`. -/
def aggNanSum (A : Arith T U) : Agg T U D := ⟨accumNanSum A, true, A.zero, gatherNanSum A, Gat.out⟩
/-- `GB_SUM` on float32. -/
def aggSumFloat (A : Arith T U) (W : Wide T U D) : Agg T U D :=
  ⟨accumSumFloat A W, true, A.zero, gatherSum A, Gat.out⟩
/-- `GB_NANSUM` on float32. -/
def aggNanSumFloat (A : Arith T U) (W : Wide T U D) : Agg T U D :=
  ⟨accumNanSumFloat A W, true, A.zero, gatherNanSum A, Gat.out⟩
/-- `GB_MIN`, `GB_MAX`. -/
def aggMin (O : Ord T) : Agg T T D := ⟨accumMin O, false, O.inv, gatherMin O, Gat.out⟩
/-- `GB_NANMIN`, `GB_NANMAX`. -/
def aggNanMin (O : Ord T) : Agg T T D := ⟨accumNanMin O, false, O.inv, gatherNanMin O, Gat.out⟩
/-- `GB_MEAN`. -/
def aggMean (A : Arith T U) : Agg T U D := ⟨accumMean A, true, A.zero, gatherMean A, gatherMeanFin A⟩
/-- `GB_NANMEAN`. -/
def aggNanMean (A : Arith T U) : Agg T U D :=
  ⟨accumNanMean A, true, A.zero, gatherNanMean A, gatherNanMeanFin A⟩
/-- `GB_MEAN` on float32. -/
def aggMeanFloat (A : Arith T U) (W : Wide T U D) : Agg T U D :=
  ⟨accumMeanFloat A W, true, A.zero, gatherMean A, gatherMeanFin A⟩
/-- `GB_NANMEAN` on float32. -/
def aggNanMeanFloat (A : Arith T U) (W : Wide T U D) : Agg T U D :=
  ⟨accumNanMeanFloat A W, true, A.zero, gatherNanMean A, gatherNanMeanFin A⟩

/-- `GroupBySingleOpMultithreaded`, `src/GroupBy.cpp:4398-4572`: scatter the blocks over the cores,
then gather. -/
def scattered (g : Agg T U D) (uniq lo hi : Nat) (rows : List (Int × T)) (cores : List (List Nat)) :
    Option (List (Option U)) :=
  (cores.mapM (scatterCore (g.kernel lo hi) uniq rows)).bind
    (gather g.allBins g.start g.step g.fin uniq lo hi)

/-- `GroupByAll32` for one column, `src/GroupBy.cpp:4584-4847`: `uniq` output bins (the number of
unique keys plus one); scattered if there are more than ten rows per bin and the pool accepts the
work, else sequential. -/
def groupByAll (g : Agg T U D) (uniq lo hi : Nat) (rows : List (Int × T))
    (par : Option (List (List Nat))) : Option (List (Option U)) :=
  match par with
  | some cores =>
    if uniq * 10 < rows.length then scattered g uniq lo hi rows cores
    else sequential (g.kernel lo hi) uniq rows
  | none => sequential (g.kernel lo hi) uniq rows

/-- Integer columns: `+` wraps around (`int64_t` and `uint64_t` totals; signed overflow, formally
undefined, is taken as wrapping). -/
def intArith (t u : IT) : Arith Int Int :=
  ⟨fun x => x != t.inv, u.inv, fun x => x != u.inv, 0, fun a b => u.wrap (a + b), u.wrap, fun a _ => a⟩

/-- Integer columns, minimum and maximum. -/
def intOrd (isMax : Bool) (t : IT) : Ord Int :=
  ⟨fun x => x != t.inv, t.inv, fun x y => if isMax then decide (y < x) else decide (x < y)⟩

/-- Float columns (bit patterns), minimum and maximum. -/
def fltOrd (isMax : Bool) (f : FT) : Ord Int :=
  ⟨fun x => !f.isNan x.toNat, f.qnan, fun x y =>
    if isMax then f.lt y.toNat x.toNat else f.lt x.toNat y.toNat⟩

/-- `a + b` of floating-point numbers holding integers, rounded by `r`. -/
def Val.add (r : Int → Int) : Val → Val → Val
  | .num a, .num b => .num (r (a + b))
  | _, _ => .nan

/-- `v / (U)count`. -/
def Val.div : Val → Int → Val
  | .num a, d => .quot a d
  | _, _ => .nan

/-- `(U)x`; a value of the column is `none` when it is invalid (NaN or the integer sentinel). -/
def Val.ofCol (r : Int → Int) : Option Int → Val
  | none => .nan
  | some x => .num (r x)

/-- Not NaN. -/
def Val.valid : Val → Bool
  | .nan => false
  | _ => true

/-- Rounding to a narrower format.  (A quotient stays a quotient: it now stands for the narrower
number.) -/
def Val.round (r : Int → Int) : Val → Val
  | .nan => .nan
  | .num n => .num (r n)
  | .quot n d => .quot n d

/-- Rounding of an integer to the nearest number of a format. -/
def rndTo (f : FT) (n : Int) : Int := f.trunc (f.ofInt n)

/-- Columns with floating-point totals of format `f`: all means, and the sums of `double` columns.
A value of the column is `none` when it is invalid, else the integer it holds (fractions are not
modelled). -/
def valArith (f : FT) : Arith (Option Int) Val :=
  ⟨Option.isSome, .nan, Val.valid, .num 0, Val.add (rndTo f), Val.ofCol (rndTo f), Val.div⟩

/-- float32 columns accumulated in double precision. -/
def valWide : Wide (Option Int) Val Val :=
  ⟨.num 0, Val.add (rndTo .f64), Val.ofCol (rndTo .f64), Val.round (rndTo .f32), Val.div, .nan⟩

end Riptide.GroupBy
