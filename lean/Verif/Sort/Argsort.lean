import Verif.Sort.Par
import Verif.Common.Num
import Verif.Str.Model
import Verif.Work.Model
/-! # Model of argsort, lexsort and partitioned lexsort, `src/Sort.cpp` -/
namespace Riptide.Sort

/-- `COMPARE_LT<T, Ascending>` for integers, `src/Sort.cpp:79-97`. -/
def intLt (asc : Bool) (x y : Int) : Bool := if asc then decide (x < y) else decide (y < x)

/-- `COMPARE_LT<T, Ascending>` for `float` and `double`, `src/Sort.cpp:79-90`: a NaN comes after
every number in both directions. -/
def floatLt (f : FT) (asc : Bool) (x y : Nat) : Bool :=
  let isInvalid := f.isNan y && !f.isNan x
  if asc then f.lt x y || isInvalid else f.lt y x || isInvalid

/-- A key column with its direction: `SortIndex`, `src/Sort.cpp:3072-3127`.  Unicode columns are lists of code points
and use the same comparison as strings. -/
inductive Column
  | ints (asc : Bool) (v : List Int)
  | floats (f : FT) (asc : Bool) (v : List Nat)
  | strs (asc : Bool) (v : List (List Nat))
  | voids (asc : Bool) (v : List (List Nat))

/-- Number of rows. -/
def Column.len : Column → Nat
  | .ints _ v => v.length
  | .floats _ _ v => v.length
  | .strs _ v => v.length
  | .voids _ v => v.length

/-- Compare two rows by their values in this column (`v[*pm]` against `v[*pj]`).  Only used on row numbers in range. -/
def Column.lt : Column → Nat → Nat → Bool
  | .ints asc v, i, j => intLt asc (v.getD i 0) (v.getD j 0)
  | .floats f asc v, i, j => floatLt f asc (v.getD i 0) (v.getD j 0)
  | .strs asc v, i, j => Str.sortLt asc (v.getD i []) (v.getD j [])
  | .voids asc v, i, j => Str.voidLt asc (v.getD i []) (v.getD j [])

/-- Only `amergesort0_` skips the merge of halves in order, `src/Sort.cpp:1766`. -/
def Column.skip : Column → Bool
  | .ints .. => true
  | _ => false

/-- The rows from `start` on, as the partition code shifts the values pointer, `src/Sort.cpp:2530`. -/
def Column.shift (start : Nat) : Column → Column
  | .ints asc v => .ints asc (v.drop start)
  | .floats f asc v => .floats f asc (v.drop start)
  | .strs asc v => .strs asc (v.drop start)
  | .voids asc v => .voids asc (v.drop start)

/-- `WORK_ITEM_BIG`, `src/MathThreads.h:167`. -/
def workItemBig : Nat := 0x8000

/-- Possible outcomes of `par_amergesort` without cutoffs, `src/Sort.cpp:2462-2680`; `none` is an access outside the index
array or the workspace.  Simplified: the workspace allocation succeeds. -/
inductive ParSort {α : Type} (lt : α → α → Bool) (skip : Bool) (a : List α) : Option (List α) → Prop
  /-- small array, workspace of half its length -/
  | single (w : List α) (h : a.length < workItemBig) (hw : w.length = a.length / 2) :
      ParSort lt skip a (singleSort lt skip a w)
  /-- threading is off: one job sorts everything, `src/Sort.cpp:2600-2606` -/
  | direct (w : List α) (h : workItemBig ≤ a.length) (hw : w.length = a.length) :
      ParSort lt skip a (singleSort lt skip a w)
  /-- some job runs out of bounds -/
  | bad (w : List α) (js : List Nat) (h : workItemBig ≤ a.length) (hw : w.length = a.length) (hjs : ∀ j ∈ js, j < 8)
      (hr : parRun lt skip a.length js (parInit a w) = none) : ParSort lt skip a none
  /-- the eight jobs, interleaved in any way, until all are done -/
  | par (w : List α) (js : List Nat) (s : ParState α) (h : workItemBig ≤ a.length) (hw : w.length = a.length)
      (hjs : ∀ j ∈ js, j < 8) (hr : parRun lt skip a.length js (parInit a w) = some s) (hd : allDone s) :
      ParSort lt skip a (some s.a)

/-- One pass: `SortIndex` on the current index; `none` also when the index has a row number outside the column. -/
inductive Pass (c : Column) (idx : List Nat) : Option (List Nat) → Prop
  | oob (h : ¬ ∀ i ∈ idx, i < c.len) : Pass c idx none
  | run (r : Option (List Nat)) (h : ∀ i ∈ idx, i < c.len) (hr : ParSort c.lt c.skip idx r) : Pass c idx r

/-- The loop over the columns in `LexSort`, `src/Sort.cpp:3593-3607`. -/
inductive LexRun : List Column → List Nat → Option (List Nat) → Prop
  | nil (idx : List Nat) : LexRun [] idx (some idx)
  | fail (c : Column) (cs : List Column) (idx : List Nat) (h : Pass c idx none) : LexRun (c :: cs) idx none
  | step (c : Column) (cs : List Column) (idx out : List Nat) (r : Option (List Nat)) (h : Pass c idx (some out))
      (hr : LexRun cs out r) : LexRun (c :: cs) idx r

/-! ## With cutoffs -/

/-- The index prepared with `0 .. len` for each partition, `src/Sort.cpp:3560-3573`; `none` when the counter runs past the
`n` rows of the index.  `cuts` are the cutoffs; a cutoff below the one before it gives an empty loop. -/
def prepIndex (n : Nat) (cuts : List Nat) : Option (List Nat) :=
  let rec go (start : Nat) : List Nat → List Nat
    | [] => []
    | e :: es => List.range (e - start) ++ go e es
  let l := go 0 cuts
  if l.length ≤ n then some (l ++ List.replicate (n - l.length) 0) else none

/-- Sorting partition `t` in place: the callback of `par_amergesort`, `src/Sort.cpp:2508-2535`.  The values pointer and the
index pointer are both moved to the partition.  `none`: the partition is not inside the array, or a row number is not
inside the column. -/
def sortPart (c : Column) (cuts : List Nat) (w : Nat → List Nat) (a : List Nat) (t : Nat) : Option (List Nat) :=
  let start := if t = 0 then 0 else cuts.getD (t - 1) 0
  let stop := cuts.getD t 0
  if stop ≤ start then some a else
  if a.length < stop then none else
  let part := (a.drop start).take (stop - start)
  if part.all (fun i => decide (start + i < c.len)) then
    match singleSort (c.shift start).lt c.skip part (w t) with
    | none => none
    | some out => some (a.take start ++ out ++ a.drop stop)
  else none

/-- The partitions in the order in which they are sorted. -/
def sortParts (c : Column) (cuts : List Nat) (w : Nat → List Nat) : List Nat → List Nat → Option (List Nat)
  | [], a => some a
  | t :: ts, a =>
    match sortPart c cuts w a t with
    | none => none
    | some a' => sortParts c cuts w ts a'

/-- One pass with cutoffs: the partitions are sorted in any completion order of the pool, each with a workspace of its own
of half its length (`NoCaching` is set, `src/Sort.cpp:3587`). -/
inductive CutPass (workers : Nat) (nt : Bool) (c : Column) (cuts : List Nat) (a : List Nat) : Option (List Nat) → Prop
  | run (w : Nat → List Nat) (order : List Nat) (h : Work.CountedWork workers cuts.length nt order)
      (hw : ∀ t, (w t).length = (cuts.getD t 0 - if t = 0 then 0 else cuts.getD (t - 1) 0) / 2) :
      CutPass workers nt c cuts a (sortParts c cuts w order a)

/-- The loop over the columns with cutoffs. -/
inductive CutRun (workers : Nat) (nt : Bool) (cuts : List Nat) : List Column → List Nat → Option (List Nat) → Prop
  | nil (a : List Nat) : CutRun workers nt cuts [] a (some a)
  | fail (c : Column) (cs : List Column) (a : List Nat) (h : CutPass workers nt c cuts a none) :
      CutRun workers nt cuts (c :: cs) a none
  | step (c : Column) (cs : List Column) (a out : List Nat) (r : Option (List Nat))
      (h : CutPass workers nt c cuts a (some out)) (hr : CutRun workers nt cuts cs out r) :
      CutRun workers nt cuts (c :: cs) a r

/-- `LexSort` without `index=`, `src/Sort.cpp:3476-3620`.  `idxMax` is the largest `UINDEX`; a longer array does not fit the
index type (outcome `none`).  Simplified: the checks of keyword types are left out. -/
inductive LexSort (idxMax n : Nat) (workers : Nat) (nt : Bool) (cols : List Column) :
    Option (List Nat) → Except Unit (Option (List Nat)) → Prop
  | tooLong (cuts : Option (List Nat)) (h : idxMax < n) : LexSort idxMax n workers nt cols cuts (.ok none)
  | plain (r : Option (List Nat)) (h : n ≤ idxMax) (hr : LexRun cols (List.range n) r) :
      LexSort idxMax n workers nt cols none (.ok r)
  /-- "last cutoff length does not match array length"; an empty list of cutoffs reads `pCutOffs[-1]` -/
  | badCuts (cuts : List Nat) (e : Nat) (h : n ≤ idxMax) (hl : cuts.getLast? = some e) (he : e ≠ n) :
      LexSort idxMax n workers nt cols (some cuts) (.error ())
  | noCuts (h : n ≤ idxMax) : LexSort idxMax n workers nt cols (some []) (.ok none)
  | prepFail (cuts : List Nat) (h : n ≤ idxMax) (hl : cuts.getLast? = some n) (hp : prepIndex n cuts = none) :
      LexSort idxMax n workers nt cols (some cuts) (.ok none)
  | cuts (cuts : List Nat) (a : List Nat) (r : Option (List Nat)) (h : n ≤ idxMax) (hl : cuts.getLast? = some n)
      (hp : prepIndex n cuts = some a) (hr : CutRun workers nt cuts cols a r) :
      LexSort idxMax n workers nt cols (some cuts) (.ok r)

end Riptide.Sort
