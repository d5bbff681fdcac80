import Verif.Window.Model
import Verif.Arrays.Nums
/-!
# The call `TimeWindow` on arrays, `src/TimeWindow.cpp:18-248`

The rows are computed from the memory of both arrays, item after item from the first one on. Unlike in `Window/Model.lean` an `int64_t` which
overflows is undefined, as in C++. What the machine makes of two floats is a parameter. Left out: running out of memory, arguments which are no
arrays or no integers (`PyArg_ParseTuple` refuses them), and the alignment of the items.
-/
namespace Riptide.Window.Call
open Riptide.Nums Riptide.Work

/-- The functions, `src/TimeWindow.cpp:10-14`. -/
inductive Fn where
  | sum
  | prod
  deriving DecidableEq, Repr

/-- `TimeWindowBase::GeTimeWindowFunction`, `src/TimeWindow.cpp:89-99`. -/
def fnOf (func : Int) : Option Fn := if func = 0 then some .sum else if func = 1 then some .prod else none

/-- The template arguments: the integer type of the input, of the output, and numpy's number of the output; or a float of `w` bytes. -/
inductive Kern where
  | int (t out : IT) (no : Nat)
  | flt (w : Nat) (no : Nat)
  deriving DecidableEq, Repr

/-- `GeTimeWindowFunction`, `src/TimeWindow.cpp:102-147`, by the number of the type. -/
def kernel : Nat → Option Kern
  | 0 | 1 => some (.int .i8 .i64 7)
  | 2 => some (.int .u8 .u64 8)
  | 3 => some (.int .i16 .i64 7)
  | 4 => some (.int .u16 .u64 8)
  | 5 => some (.int .i32 .i64 7)
  | 6 => some (.int .u32 .u64 8)
  | 7 | 9 => some (.int .i64 .i64 7)
  | 8 | 10 => some (.int .u64 .u64 8)
  | 11 => some (.flt 4 11)
  | 12 => some (.flt 8 12)
  | 13 => some (.flt 16 13)
  | _ => none

/-- The number without its limits, `src/TimeWindow.cpp:46` and `77`. -/
def opZ : Fn → Int → Int → Int
  | .sum, s, x => s + x
  | .prod, s, x => s * x

/-- `currentSum += pIn[timeIndex]` and `currentProd *= pIn[timeIndex]` for integers, `src/TimeWindow.cpp:46` and `77`: `none` if an `int64_t`
overflows, a `uint64_t` wraps around. -/
def intOp (f : Fn) (out : IT) (s x : Int) : Option Int :=
  if out.signed ∧ ¬ out.InRange (opZ f s x) then none else some (out.wrap (opZ f s x))

/-- The loop `while (timeIndex >= 0)`, `src/TimeWindow.cpp:38-53` and `69-84`, with `timeIndex = j - 1`. `none`: memory is read which is not the
array's, or an `int64_t` overflows. -/
def back {α : Type} (op : α → α → Option α) (val : Nat → Option α) (tm : Nat → Option Int) (delta : Int) (i : Nat) (acc : α) : Nat → Option α
  | 0 => some acc
  | j + 1 => (tm i).bind fun ti => (tm j).bind fun tj =>
    if ¬ IT.i64.InRange (ti - tj) then none
    else if ti - tj ≤ delta then (val j).bind fun x => (op acc x).bind fun s => back op val tm delta i s j
    else some acc

/-- One row, `src/TimeWindow.cpp:37-54` and `68-85`. -/
def row {α : Type} (op : α → α → Option α) (val : Nat → Option α) (tm : Nat → Option Int) (delta : Int) (i : Nat) : Option α :=
  (val i).bind fun x => back op val tm delta i x i

/-- All rows, in blocks: `src/TimeWindow.cpp:207-237`. -/
def rows {α : Type} (op : α → α → Option α) (val : Nat → Option α) (tm : Nat → Option Int) (delta : Int) (n : Nat) (par : Option (List Nat)) :
    Option (List (Option α)) :=
  (elemWork (row op val tm delta) n par).bind (runWrites n)

/-- What comes of the call, `src/TimeWindow.cpp:157-248`. -/
inductive Result where
  /-- "TimeWindow array and time array must have same length", lines 175-181. -/
  | lengths
  /-- "TimeWindow time array must be int64", lines 183-191. -/
  | timeType
  /-- `None`, lines 246-247. -/
  | none
  /-- An array of one dimension of integers, with its type. -/
  | ints (type : Nat) (values : List (Option Int))
  /-- An array of one dimension of floats. -/
  | floats (type : Nat) (values : List (Option Nat))
  | undefined
  deriving DecidableEq, Repr

/-- The items of an array as the kernels see them: `pIn[i]` and `pTime[i]`, `src/TimeWindow.cpp:29-42`. -/
def intAt (t : IT) (m : Mem) (i : Nat) : Option Int := loadInt t m ((i * (t.bits / 8) : Nat) : Int)

/-- `pIn[i]` for floats, `src/TimeWindow.cpp:29-37`. -/
def bitsAt (w : Nat) (m : Mem) (i : Nat) : Option Nat := load m ((i * w : Nat) : Int) w

/-- The kernel runs, `src/TimeWindow.cpp:198-244`. -/
def run (flop : Nat → Fn → Nat → Nat → Nat) (k : Kern) (f : Fn) (m tm : Mem) (delta : Int) (n : Nat) (par : Option (List Nat)) : Result :=
  match k with
  | .int t out no =>
    match rows (intOp f out) (intAt t m) (intAt .i64 tm) delta n par with
    | some l => .ints no l
    | .none => .undefined
  | .flt w no =>
    match rows (fun s x => some (flop no f s x)) (bitsAt w m) (intAt .i64 tm) delta n par with
    | some l => .floats no l
    | .none => .undefined

/-- `TimeWindow`, `src/TimeWindow.cpp:157-248`: the values `a` with the memory `m`, the times `b` with `tm`. -/
def call (flop : Nat → Fn → Nat → Nat → Nat) (a : Arr) (m : Mem) (b : Arr) (tm : Mem) (func delta : Int) (par : Option (List Nat)) : Result :=
  if a.lay.len ≠ b.lay.len then .lengths
  else if b.type ≠ 7 ∧ b.type ≠ 9 then .timeType
  else match kernel a.type, fnOf func with
    | some k, some f => run flop k f m tm delta a.lay.len par
    | _, _ => .none

end Riptide.Window.Call
