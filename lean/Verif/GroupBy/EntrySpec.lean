import Verif.GroupBy.Entry
/-! # What the group functions should accept and return

Types are described by what their items are and how many bytes they have, independently of the tables of the code. -/
namespace Riptide.GroupBy.Entry

/-- What the items of an array are. -/
inductive Kind where
  | bool | int | nat | float | bytes
  deriving DecidableEq, Repr

/-- Items of a numpy type: what they are and their size. -/
def npy (ty : Nat) : Option (Kind × Nat) :=
  if ty = 0 then some (.bool, 1)
  else if ty ≤ 8 then some (if ty % 2 = 1 then .int else .nat, 2 ^ ((ty - 1) / 2))
  else if ty ≤ 10 then some (if ty % 2 = 1 then .int else .nat, 8)
  else if ty ≤ 13 then some (.float, 2 ^ (ty - 9))
  else none

/-- What a C type stores. -/
def CT.kind : CT → Kind
  | .bool => .bool
  | .i8 | .i16 | .i32 | .i64 => .int
  | .u8 | .u16 | .u32 | .u64 => .nat
  | .f32 | .f64 | .f80 => .float
  | .raw => .bytes

/-- A function working with the C type `t` may be given an array of the type `ty`: the items are the same, or bytes holding
booleans. -/
def fits (t : CT) (ty : Nat) : Bool := npy ty == some (t.kind, t.size) || (ty == 0 && t == .i8)

/-- The numbers of the functions of columns and of those of groups and rows. -/
def columnFuncs : List Int := [0, 1, 2, 3, 4, 5, 50, 51, 52, 53, 54, 55]
def groupFuncs : List Int := [100, 101, 102, 103, 104, 105, 106]
def rowFuncs : List Int := [200, 201, 202, 203, 204, 205, 206, 207]

/-- The items of the result of a function of columns: sums of whole numbers have 64 bits with or without sign and other sums keep
the type; extremes keep the type; means and variances are float64, of float32 float32. -/
def resultItems (func : Int) (ty : Nat) : Option (Kind × Nat) :=
  (npy ty).map fun k =>
    if func = 0 ∨ func = 50 then
      match k.1 with
      | .float => k
      | .nat => (.nat, 8)
      | _ => (.int, 8)
    else if func = 2 ∨ func = 3 ∨ func = 52 ∨ func = 53 then k
    else if k = (.float, 4) then k else (.float, 8)

/-- The pairs of functions and types which are refused among the functions of groups and rows. -/
def refused (func : Int) (ty : Nat) : Bool :=
  if flexible ty then !([100, 101, 102, 103, 203] : List Int).contains func
  else if ty = 0 then ([202, 204, 205, 206, 207] : List Int).contains func
  else func = 204 && !([1, 3, 5, 7, 9] : List Nat).contains ty

/-- The items of the result of a function of groups or rows of a numeric column: trimmed means are float64 (float32 of float32 and
bool), quantiles float64 but of the same type for bool, float32 and long double, counts of rows int32, means and quantiles of rows
float64, sums of rows int64 for all whole numbers; the others keep the type. -/
def groupResult (func : Int) (ty : Nat) : Option (Kind × Nat) :=
  (npy ty).map fun k =>
    if func = 105 then (if k.1 = .bool ∨ k = (.float, 4) then (.float, 4) else (.float, 8))
    else if func = 106 then (if k.1 = .bool ∨ k.1 = .float then k else (.float, 8))
    else if func = 204 then (.int, 4)
    else if func = 205 ∨ func = 206 ∨ func = 207 then (.float, 8)
    else if func = 200 ∨ func = 201 then (if k.1 = .float then k else (.int, 8))
    else k

/-- The ranges of bins of a request which stay inside of `n` bins. -/
def BinsInside (r : Req) (n : Int) : Prop :=
  r.highs.length = r.cols.length ∧ ∀ (i : Nat) (lo hi : Int), r.lows[i]? = some lo → r.highs[i]? = some hi →
    0 ≤ lo ∧ lo ≤ hi ∧ hi ≤ n ∧ n < 2 ^ 63

/-- What the numbers of the functions of columns stand for (`src/GroupBy.h:6-25`), for bool, for float32 and for the other types. -/
def columnNames : List (Int × Name × Name × Name) :=
  [(0, .sum, .sumFloat, .sum), (1, .mean, .meanFloat, .mean), (2, .min, .min, .min), (3, .max, .max, .max), (4, .var, .var, .var),
    (5, .std, .std, .std), (50, .nanSum, .nanSumFloat, .nanSum), (51, .nanMean, .nanMeanFloat, .nanMean), (52, .min, .nanMin, .nanMin),
    (53, .max, .nanMax, .nanMax), (54, .nanVar, .nanVar, .nanVar), (55, .nanStd, .nanStd, .nanStd)]

/-- How the parts of the threads are put together. -/
def gatherNames : List (Int × Gather) :=
  [(0, .sum), (1, .mean), (2, .min), (3, .max), (50, .nanSum), (51, .nanMean), (52, .nanMin), (53, .nanMax)]

/-- What the other numbers stand for (`src/GroupBy.h:26-45`), for numbers and for bytes. -/
def groupNames : List (Int × XName × XName) :=
  [(100, .first, .firstStr), (101, .nth, .nthStr), (102, .last, .lastStr), (103, .median, .medianStr), (104, .mode, .mode), (105, .trim, .trim),
    (106, .quantile, .quantile), (200, .rollSum, .rollSum), (201, .rollNanSum, .rollNanSum), (202, .rollDiff, .rollDiff),
    (203, .rollShift, .rollShift), (204, .rollCount, .rollCount), (205, .rollMean, .rollMean), (206, .rollNanMean, .rollNanMean),
    (207, .rollQuantile, .rollQuantile)]

end Riptide.GroupBy.Entry
