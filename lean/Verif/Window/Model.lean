import Verif.Work.Elem
import Verif.Common.Num
/-! # Model of time-window sums and products, `src/TimeWindow.cpp` -/
namespace Riptide.Window
open Riptide.Work

/-- The `while (timeIndex >= 0)` loop of `TimeWindowSum`/`TimeWindowProd`, `src/TimeWindow.cpp:41-57`,
72-88, with `timeIndex = j - 1`.  `none`: read outside an array.  The difference of times is
computed in 64-bit integers (wrapping). -/
def back {α : Type} (op : α → α → α) (xs : List α) (time : List Int) (delta ti : Int) (acc : α) :
    Nat → Option α
  | 0 => some acc
  | j + 1 =>
    match time[j]? with
    | none => none
    | some tj =>
      if IT.i64.wrap (ti - tj) ≤ delta then
        match xs[j]? with
        | none => none
        | some x => back op xs time delta ti (op acc x) j
      else some acc

/-- One output row, `src/TimeWindow.cpp:36-58`. -/
def row {α : Type} (op : α → α → α) (xs : List α) (time : List Int) (delta : Int) (i : Nat) :
    Option α :=
  match xs[i]?, time[i]? with
  | some x, some ti => back op xs time delta ti x i
  | _, _ => none

/-- `TimeWindow`, `src/TimeWindow.cpp:149-252`: the rows are computed in parallel blocks. -/
def timeWindow {α : Type} (op : α → α → α) (xs : List α) (time : List Int) (delta : Int)
    (par : Option (List Nat)) : Option (List (Option α)) :=
  (elemWork (row op xs time delta) xs.length par).bind (runWrites xs.length)

end Riptide.Window
