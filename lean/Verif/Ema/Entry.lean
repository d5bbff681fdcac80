import Verif.Ema.Decay
import Verif.GroupBy.Entry
import Verif.Work.Model
/-! # Model of the call `EmaAll32`, `src/Ema.cpp`: which function runs for which types, and what is returned

The items of arrays are integers: the values of whole numbers, the bit patterns of floating-point numbers.  Types are numpy's
numbers, as in `Verif.GroupBy.Entry`.  Interruption by the user and running out of memory are left out. -/
namespace Riptide.Ema.Entry
open Riptide.GroupBy.Entry (CT inOf freshItem)

/-- The functions, `src/Ema.cpp:777-1948`. -/
inductive Name where
  | cumSum | cumProd | nanMin | nanMax | min | max | findNth | decay | normal | weighted
  deriving DecidableEq, Repr

/-- A function with the types of its template: `T` of the column, `U` of the items it writes, `V` of the time; `out` is
`*outputType`. -/
structure Kern where
  name : Name
  T : CT
  U : CT
  V : Option CT
  out : Nat
  deriving DecidableEq, Repr

/-- The branches `EMA_CUMSUM` and `EMA_CUMPROD`, `src/Ema.cpp:1987-2030`, `2159-2202`. -/
def sumKern (n : Name) (ty : Nat) : Option Kern :=
  (inOf ty).map fun t => match t with
    | .f32 => ⟨n, .f32, .f32, none, 11⟩
    | .f64 => ⟨n, .f64, .f64, none, 12⟩
    | .f80 => ⟨n, .f80, .f80, none, 13⟩
    | .u8 | .u16 | .u32 | .u64 => ⟨n, t, .u64, none, 8⟩
    | _ => ⟨n, t, .i64, none, 7⟩

/-- The branches of the extremes, `src/Ema.cpp:2031-2157`. -/
def extKern (n : Name) (ty : Nat) : Option Kern := (inOf ty).map fun t => ⟨n, t, t, none, ty⟩

/-- The cases of `GetEmaByStep2`, `src/Ema.cpp:1955-1976`. -/
def timeOf (time : Int) : Option CT :=
  if time = 11 then some .f32 else if time = 12 then some .f64 else if time = 13 then some .f80
  else if time = 5 then some .i32 else if time = 7 ∨ time = 9 then some .i64
  else if time = 6 then some .u32 else if time = 8 ∨ time = 10 then some .u64 else none

/-- The branches `EMA_NORMAL`, `EMA_WEIGHTED` and `EMA_DECAY`, `src/Ema.cpp:2209-2245`, with `GetEmaByStep2`, `1952-1978`. -/
def avgKern (n : Name) (ty : Nat) (time : Int) : Option Kern :=
  (inOf ty).bind fun t => (timeOf time).map fun v => ⟨n, t, if v = .f80 then .f80 else .f64, some v, 12⟩

/-- `GetEmaByFunction`, `src/Ema.cpp:1980-2250`; the numbers are `src/Ema.h:23-35`.  `time` is -1 without a time. -/
def kernOf (func : Int) (ty : Nat) (time : Int) : Option Kern :=
  if func = 300 then sumKern .cumSum ty
  else if func = 301 then avgKern .decay ty time
  else if func = 302 then sumKern .cumProd ty
  else if func = 303 then some ⟨.findNth, .raw, .i32, none, 5⟩
  else if func = 304 then avgKern .normal ty time
  else if func = 305 then avgKern .weighted ty time
  else if func = 306 then extKern .nanMax ty
  else if func = 307 then extKern .nanMin ty
  else if func = 308 then extKern .max ty
  else if func = 309 then extKern .min ty
  else none

/-! ## Running a function -/

/-- The arithmetic of floating-point numbers, which is not modelled: sum and product for a type, the number one, the invalid
`long double` and the comparisons of `long double`, and the averages. -/
structure Arith where
  add : CT → Int → Int → Int
  mul : CT → Int → Int → Int
  one : CT → Int
  nan80 : Int
  isNan80 : Int → Bool
  lt80 : Int → Int → Bool
  avg : Kern → Int → Masks → List Int → List Int → List Int → Nat → Int

/-- The integer type of a template argument. -/
def itOf : CT → Option IT
  | .i8 => some .i8 | .u8 => some .u8 | .i16 => some .i16 | .u16 => some .u16
  | .i32 => some .i32 | .u32 => some .u32 | .i64 => some .i64 | .u64 => some .u64 | _ => none

/-- `invalid_for_type` of `float`, `double` and `long double`, `src/missing_values.h:215-259`. -/
def nanOf (fa : Arith) : CT → Int
  | .f32 => 0x7fc00000
  | .f64 => 0x7ff8000000000000
  | _ => fa.nan80

/-- The comparisons of the extremes for a type of bit patterns. -/
def fltKind (f : FT) (nan : Int) (up : Bool) : Kind Int :=
  ⟨nan, fun b => !f.isNan b.toNat, fun a b => if up then f.lt b.toNat a.toNat else f.lt a.toNat b.toNat⟩

/-- The comparisons of the extremes, `std::less` or `std::greater` (`up`), `src/Ema.cpp:2031-2157`. -/
def kindOf (fa : Arith) (t : CT) (up : Bool) : Kind Int :=
  match itOf t with
  | some i => if up then intMax i else intMin i
  | none => match t with
    | .f32 => fltKind .f32 (nanOf fa .f32) up
    | .f64 => fltKind .f64 (nanOf fa .f64) up
    | _ => ⟨fa.nan80, fun b => !fa.isNan80 b, fun a b => if up then fa.lt80 b a else fa.lt80 a b⟩

/-- Whether all accesses of `EmaDecay`, `EmaNormal` or `EmaWeighted` are inside of their arrays: which places are accessed does
not depend on the values, so that the models of these functions are run on numbers without rounding. -/
def avgInside (n : Name) (m : Masks) (key src time : List Int) (uniq rows : Nat) : Bool :=
  match n with
  | .decay => (emaDecay .i64 (fun _ => (1 : Int)) 0 m key src time uniq rows).isSome
  | .normal => (emaNormal .i64 (fun _ => (1 : Int)) 0 m key src time rows (List.replicate (uniq + 1) 0)).isSome
  | _ => (emaWeighted (1 : Int) 0 m key src rows (List.replicate (uniq + 1) 0)).isSome

/-- One call of a function, `src/Ema.cpp:777-1932`: the items it writes (`none`: left as they are), or `none` when memory outside
of an array is accessed. -/
def runKern (fa : Arith) (k : Kern) (param : Int) (m : Masks) (key src time : List Int) (uniq rows : Nat) :
    Option (List (Option Int)) :=
  match k.name with
  | .cumSum => match itOf k.T with
    | some t => cumSum t m key src uniq rows
    | none => cumulate 0 (fa.add k.U) (nanOf fa k.U) m key src uniq rows
  | .cumProd => match itOf k.T with
    | some t => cumProd t m key src uniq rows
    | none => cumulate (fa.one k.U) (fa.mul k.U) (nanOf fa k.U) m key src uniq rows
  | .nanMin => cumNanExtreme (kindOf fa k.T false) m key src uniq rows
  | .nanMax => cumNanExtreme (kindOf fa k.T true) m key src uniq rows
  | .min => cumExtreme (kindOf fa k.T false) m key src uniq rows
  | .max => cumExtreme (kindOf fa k.T true) m key src uniq rows
  | .findNth => findNth m.inc key uniq rows
  | n => if avgInside n m key src time uniq rows then
      some ((List.range rows).map fun i => some (fa.avg k param m key src time i)) else none

/-! ## The arguments -/

/-- An array: its type, its number of dimensions, its elements, and the items of memory from its first element on.  In an array
with a step, or in a slice, they differ from the elements. -/
structure Arr where
  ty : Nat
  dims : Nat := 1
  vals : List Int
  mem : List Int
  deriving DecidableEq, Repr

/-- A Python object: `None`, an array, or anything else. -/
inductive Obj where
  | pyNone
  | arr (a : Arr)
  | other
  deriving DecidableEq, Repr

/-- The last argument: a tuple of four entries (the number if it is one), a tuple of another size, or no tuple. -/
inductive Params where
  | notTuple
  | otherSize (n : Nat)
  | four (number : Option Int) (time inc rst : Obj)
  deriving DecidableEq, Repr

/-- The first argument: an array, a list or tuple, or something else. -/
inductive Cols where
  | one (a : Arr)
  | many (l : List Obj)
  | other
  deriving DecidableEq, Repr

/-- The arguments; `uniq` and `func` are `none` when no integers are given. -/
structure Req where
  cols : Cols
  key : Obj
  uniq : Option Int
  func : Option Int
  params : Params
  deriving DecidableEq, Repr

/-- Why an exception is raised. -/
inductive Err where
  | args | paramsType | keyType | paramsSize | paramsArgs | resetMask | includeMask | time | columns
  deriving DecidableEq, Repr

/-- An entry of the result: `None`, or an array of a type with its items (`none`: never written). -/
inductive Ret where
  | pyNone
  | array (ty : Nat) (items : List (Option Int))
  deriving DecidableEq, Repr

/-- How the call ends. -/
inductive Reply where
  | err (e : Err)
  | undef
  | done (l : List Ret)
  deriving DecidableEq, Repr

/-- What is kept of a column, `src/MultiKey.cpp:198-296`: type and elements.  `None` counts as a boolean array without rows whose
memory is at address 0. -/
structure Col where
  ty : Nat
  vals : List Int
  deriving DecidableEq, Repr

/-- One entry of the list, `src/MultiKey.cpp:198-296` with `checkrows`: arrays must have a type up to `NPY_VOID` (20) and one
dimension; arrays with a step are copied.  (Left out: an array of one element with a step is not copied, `src/RipTide.cpp:247`,
and refused.) -/
def colOf : Obj → Option Col
  | .pyNone => some ⟨0, []⟩
  | .arr a => if a.ty ≤ 20 ∧ a.dims = 1 then some ⟨a.ty, a.vals⟩ else none
  | .other => none

/-- The rows must be equally many, `src/MultiKey.cpp:300-313`. -/
def sameRows : List Col → Bool
  | [] => true
  | c :: cs => cs.all fun d => d.vals.length == c.vals.length

/-- `BuildArrayInfo`, `src/MultiKey.cpp:145-324`: `none` when an exception is set. -/
def buildCols (cols : Cols) : Option (List Col) :=
  match cols with
  | .other => none
  | .one a => (colOf (.arr a)).map fun c => [c]
  | .many l => (l.mapM colOf).bind fun cs => if sameRows cs then some cs else none

/-- The test of a mask, `src/Ema.cpp:2407-2417`: whether it is refused; `none` when the object is no array, whose exception is set
but does not end the call (`2383-2395`), so that its memory is taken for an array. -/
def maskBad (rows : Nat) : Obj → Option Bool
  | .pyNone => some false
  | .arr a => some (a.ty != 0 || a.vals.length != rows)
  | .other => none

/-- The test of the time, `src/Ema.cpp:2419-2424`: types from `NPY_INT` (5) to `NPY_LONGDOUBLE` (13); `2374-2377`. -/
def timeBad (rows : Nat) : Obj → Option Bool
  | .pyNone => some false
  | .arr a => some (decide (a.ty < 5) || decide (13 < a.ty) || a.vals.length != rows)
  | .other => none

/-- `PyArray_BYTES` of an optional array: the items of memory which are read, whatever the step is, `src/Ema.cpp:2452-2454`. -/
def bytesOf (rows : Nat) : Obj → Option (List Int)
  | .arr a => some (a.mem.take rows)
  | _ => none

/-- The type of the time, -1 without one, `src/Ema.cpp:2473`. -/
def timeType : Obj → Int
  | .arr a => a.ty
  | _ => -1

/-- `(EMA_FUNCTIONS)funcNum`: an enumeration of 32 bits, `src/Ema.cpp:2474`. -/
def funcOf (v : Int) : Int := v % 2 ^ 32

/-- The fields of `stEma32`, `src/Ema.cpp:60-78`, filled in at `2445-2455`. -/
structure Job where
  cols : List Col
  key : List Int
  rows : Nat
  uniq : Int
  func : Int
  timeTy : Int
  time : List Int
  masks : Masks
  param : Int

/-- `EmaByCall` for one column, `src/Ema.cpp:2258-2314`, with the choice of its function and result, `2462-2508`: `none` when
memory outside of an array is accessed.  The result has `rows` items of the type `out`; items of `U` must fit.  With a negative
`uniq` the size of the work space is 0 or negative (simplification: undefined even if no row has a group). -/
def callCol (fa : Arith) (j : Job) (c : Col) : Option Ret :=
  match kernOf (funcOf j.func) c.ty j.timeTy with
  | none => some .pyNone
  | some k =>
    if j.uniq < 0 ∨ (freshItem k.out < k.U.size ∧ 0 < j.rows) then none
    else (runKern fa k j.param j.masks j.key (c.vals.take j.rows) j.time j.uniq.toNat j.rows).map (.array k.out)

/-- One turn of a thread: column `i` of the tuple. -/
def turn (fa : Arith) (j : Job) (slots : List Ret) (i : Nat) : Option (List Ret) :=
  j.cols[i]?.bind fun c => (callCol fa j c).map fun v => slots.set i v

/-- How the columns are given to the threads, `WorkGroupByCall`, `src/MathWorker.h:601-621`: one after the other for fewer than two
columns or without threads. -/
inductive ColSched (workers n : Nat) (noThreading : Bool) : List Nat → Prop where
  | direct (h : n < 2 ∨ noThreading = true) : ColSched workers n noThreading (List.range n)
  | pool (calls : List Nat) (h1 : ¬ (n < 2 ∨ noThreading = true)) (h2 : Work.PoolRun workers n calls) :
      ColSched workers n noThreading calls

/-- The columns are done in the order `calls`; without columns `stEma32` is written to a work space of 0 bytes,
`src/Ema.cpp:2443-2455`. -/
def runJob (fa : Arith) (calls : List Nat) (j : Job) : Reply :=
  if j.cols = [] then .undef
  else match calls.foldlM (turn fa j) (List.replicate j.cols.length .pyNone) with
    | none => .undef
    | some l => .done l

/-- The part after the tests of the masks and of the time, `src/Ema.cpp:2426-2535`. -/
def callRun (fa : Arith) (calls : List Nat) (cols : Cols) (key : Arr) (uniq func number : Int) (time inc rst : Obj) : Reply :=
  match buildCols cols with
  | none => .err .columns
  | some cs => runJob fa calls
      { cols := cs, key := key.mem.take key.vals.length, rows := key.vals.length, uniq := uniq, func := func,
        timeTy := timeType time, time := (bytesOf key.vals.length time).getD [],
        masks := ⟨(bytesOf key.vals.length inc).map (·.map (· != 0)), (bytesOf key.vals.length rst).map (·.map (· != 0))⟩,
        param := number }

/-- The tests of the masks and of the time in their order, `src/Ema.cpp:2405-2424`. -/
def callTests (fa : Arith) (calls : List Nat) (cols : Cols) (key : Arr) (uniq func number : Int) (time inc rst : Obj) : Reply :=
  match maskBad key.vals.length rst with
  | none => .undef
  | some true => .err .resetMask
  | some false => match maskBad key.vals.length inc with
    | none => .undef
    | some true => .err .includeMask
    | some false => match timeBad key.vals.length time with
      | none => .undef
      | some true => .err .time
      | some false => callRun fa calls cols key uniq func number time inc rst

/-- An integer argument of the format `L`. -/
def longOf (v : Option Int) : Option Int := v.bind fun x => if -2 ^ 63 ≤ x ∧ x < 2 ^ 63 then some x else none

/-- `EmaAll32`, `src/Ema.cpp:2323-2536`; the columns are finished in the order `calls`. -/
def emaAll (fa : Arith) (calls : List Nat) (r : Req) : Reply :=
  match r.key, longOf r.uniq, longOf r.func with
  | .arr key, some uniq, some func =>
    match r.params with
    | .notTuple => .err .paramsType
    | .otherSize _ => if [1, 3, 5, 7, 9].contains key.ty then .err .paramsSize else .err .keyType
    | .four number time inc rst =>
      if [1, 3, 5, 7, 9].contains key.ty then
        match number with
        | none => .err .paramsArgs
        | some d => callTests fa calls r.cols key uniq func d time inc rst
      else .err .keyType
  | _, _, _ => .err .args

end Riptide.Ema.Entry
