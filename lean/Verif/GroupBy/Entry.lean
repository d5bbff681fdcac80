/-! # Model of the choice of the group functions and of the calls `GroupByAll32` and `GroupByAllPack32`, `src/GroupBy.cpp`

Numpy's type numbers on Linux: 0 bool, 1/2 int8/uint8, 3/4 int16/uint16, 5/6 int32/uint32, 7/8 and 9/10 int64/uint64, 11 float32,
12 float64, 13 long double, 17 object, 18 bytes, 19 text, 20 void.  What the functions calculate is modelled in `Verif.GroupBy.Model`,
`Verif.Rolling.Model` and `Verif.Median.Model`; here is which function is chosen, for which types, which arrays it is given and
which parts of them it touches.  Positions are counted in bytes.  Interruption by the user and running out of memory are left out. -/
namespace Riptide.GroupBy.Entry

/-- The types with which the templates are instantiated: `raw` is `char` or `flexible_t`, a byte of an item of any size. -/
inductive CT where
  | bool | i8 | i16 | i32 | i64 | u8 | u16 | u32 | u64 | f32 | f64 | f80 | raw
  deriving DecidableEq, Repr

/-- `sizeof`, x86-64. -/
def CT.size : CT → Nat
  | .bool | .i8 | .u8 | .raw => 1
  | .i16 | .u16 => 2
  | .i32 | .u32 | .f32 => 4
  | .i64 | .u64 | .f64 => 8
  | .f80 => 16

/-- The cases of the switches over the input type: `CASE_NPY_INT32`, `CASE_NPY_INT64` and so on are `src/CommonInc.h:110-117`. -/
def ctOf : Nat → Option CT
  | 0 => some .bool | 1 => some .i8 | 2 => some .u8 | 3 => some .i16 | 4 => some .u16 | 5 => some .i32 | 6 => some .u32
  | 7 | 9 => some .i64 | 8 | 10 => some .u64 | 11 => some .f32 | 12 => some .f64 | 13 => some .f80
  | _ => none

/-- The type of the templates of `GetGroupByFunction`, which take bytes for booleans, `src/GroupBy.cpp:3159-3161`, `3249-3251` and so on. -/
def inOf (ty : Nat) : Option CT := if ty = 0 then some .i8 else ctOf ty

/-- The number which numpy gives back for a type: `NPY_INT64` is 7 and `NPY_UINT64` is 8. -/
def numOf : CT → Nat
  | .bool => 0 | .i8 => 1 | .u8 => 2 | .i16 => 3 | .u16 => 4 | .i32 => 5 | .u32 => 6 | .i64 => 7 | .u64 => 8
  | .f32 => 11 | .f64 => 12 | .f80 => 13 | .raw => 20

/-- The accumulators of the first kind, `src/GroupBy.cpp:222-1175`. -/
inductive Name where
  | sum | sumFloat | nanSum | nanSumFloat | min | nanMin | max | nanMax | mean | meanFloat | nanMean | nanMeanFloat
  | var | nanVar | std | nanStd
  deriving DecidableEq, Repr

/-- What `GetGroupByFunction` gives: the accumulator with its types, the types of the result and of the temporary array, and
`hasCounts`. -/
structure Two where
  name : Name
  T : CT
  U : CT
  out : Nat
  tmp : Option Nat
  counts : Bool
  deriving DecidableEq, Repr

/-- The functions which add, `src/GroupBy.cpp:3153-3244`: `f` for float32, `g` for the others. -/
def addFunc (f g : Name) (counts : Bool) (ty : Nat) : Option Two :=
  (inOf ty).map fun t => match t with
    | .f32 => ⟨f, .f32, .f32, 11, some 12, counts⟩
    | .f64 => ⟨g, .f64, .f64, 12, none, counts⟩
    | .f80 => ⟨g, .f80, .f80, 13, none, counts⟩
    | .u8 | .u16 | .u32 | .u64 => ⟨g, t, .u64, 8, none, counts⟩
    | _ => ⟨g, t, .i64, 7, none, counts⟩

/-- The functions of the least and the greatest value, `src/GroupBy.cpp:3245-3423`: `f` for bool, `g` for the others; `counts` says
whether the floating-point types have counts. -/
def extFunc (f g : Name) (counts : Bool) (ty : Nat) : Option Two :=
  (inOf ty).map fun t =>
    if ty = 0 then ⟨f, .i8, .i8, 0, none, true⟩
    else match t with
      | .f32 | .f64 | .f80 => ⟨g, t, t, numOf t, none, counts⟩
      | _ => ⟨g, t, t, numOf t, none, true⟩

/-- The functions of means and variances, `src/GroupBy.cpp:3424-3692`: `f` for float32, `g` for the others. -/
def avgFunc (f g : Name) (ty : Nat) : Option Two :=
  (inOf ty).map fun t => match t with
    | .f32 => ⟨f, .f32, .f32, 11, some 12, true⟩
    | _ => ⟨g, t, .f64, 12, none, true⟩

/-- `GetGroupByFunction`, `src/GroupBy.cpp:3145-3698`; the numbers of the functions are `src/GroupBy.h:6-45`. -/
def twoFunc (func : Int) (ty : Nat) : Option Two :=
  if func = 0 then addFunc .sumFloat .sum true ty
  else if func = 1 then avgFunc .meanFloat .mean ty
  else if func = 2 then extFunc .min .min true ty
  else if func = 3 then extFunc .max .max true ty
  else if func = 4 then avgFunc .var .var ty
  else if func = 5 then avgFunc .std .std ty
  else if func = 50 then addFunc .nanSumFloat .nanSum false ty
  else if func = 51 then avgFunc .nanMeanFloat .nanMean ty
  else if func = 52 then extFunc .min .nanMin false ty
  else if func = 53 then extFunc .max .nanMax true ty
  else if func = 54 then avgFunc .nanVar .nanVar ty
  else if func = 55 then avgFunc .nanStd .nanStd ty
  else none

/-- Whether the accumulator reads or writes `pCountOut`, `src/GroupBy.cpp:222-1175`. -/
def Name.usesCounts : Name → Bool
  | .nanSum | .nanSumFloat | .nanMin | .nanMax => false
  | _ => true

/-- Whether the accumulator with the column type `t` uses `pDataTmp`, `src/GroupBy.cpp:268`, `385`, `709`, `866` and, for float32
only, `947` and `1055`. -/
def Name.usesTmp (n : Name) (t : CT) : Bool :=
  match n with
  | .sumFloat | .nanSumFloat | .meanFloat | .nanMeanFloat => true
  | .var | .nanVar | .std | .nanStd => t == .f32
  | _ => false

/-- The functions which put the parts of the threads together, `src/GroupBy.cpp:2502-2897`. -/
inductive Gather where
  | sum | nanSum | mean | nanMean | min | nanMin | max | nanMax
  deriving DecidableEq, Repr

/-- `GetGroupByGatherFunction`, `src/GroupBy.cpp:2900-3137`, by the type of the result. -/
def gatherFunc (func : Int) (out : Nat) : Option (Gather × CT) :=
  (inOf out).bind fun t =>
    let wide : CT := match t with
      | .f32 | .f64 | .f80 => t
      | .u8 | .u16 | .u32 | .u64 => .u64
      | _ => .i64
    let avg : CT := if t = .f32 then .f32 else .f64
    if func = 0 then some (.sum, wide)
    else if func = 50 then some (.nanSum, wide)
    else if func = 1 then some (.mean, avg)
    else if func = 51 then some (.nanMean, avg)
    else if func = 2 then some (.min, t)
    else if func = 52 then some (.nanMin, t)
    else if func = 3 then some (.max, t)
    else if func = 53 then some (.nanMax, t)
    else none

/-- Whether the gathering function reads the counts, `src/GroupBy.cpp:2502-2897`. -/
def Gather.usesCounts : Gather → Bool
  | .sum | .mean | .nanMean | .min | .max => true
  | _ => false

/-! ## The functions of whole groups -/

/-- The functions of the second kind, `src/GroupBy.cpp:1177-2494`; those with `Str` copy bytes. -/
inductive XName where
  | first | nth | last | median | mode | quantile | trim
  | firstStr | nthStr | lastStr | medianStr
  | rollSum | rollNanSum | rollDiff | rollShift | rollCount | rollMean | rollNanMean | rollQuantile
  deriving DecidableEq, Repr

/-- What `GetGroupByXFunction` gives: the function, its types and the type of the result. -/
structure XFun where
  name : XName
  T : CT
  U : CT
  out : Nat
  deriving DecidableEq, Repr

/-- `GetXFunc2`, `src/GroupBy.cpp:2420-2444`. -/
def xFunc2 (func : Int) : Option XName :=
  if func = 200 then some .rollSum else if func = 201 then some .rollNanSum else if func = 202 then some .rollDiff
  else if func = 203 then some .rollShift else if func = 204 then some .rollCount else if func = 205 then some .rollMean
  else if func = 206 then some .rollNanMean else if func = 207 then some .rollQuantile else none

/-- `GetXFunc`, `src/GroupBy.cpp:2447-2467`. -/
def xFunc1 (func : Int) : Option XName :=
  if func = 100 then some .first else if func = 101 then some .nth else if func = 102 then some .last
  else if func = 103 then some .median else if func = 104 then some .mode else if func = 106 then some .quantile else none

/-- `GetXFuncString`, `src/GroupBy.cpp:2469-2494`. -/
def xFuncStr (func : Int) : Option XName :=
  if func = 100 then some .firstStr else if func = 102 then some .lastStr else if func = 101 then some .nthStr
  else if func = 103 then some .medianStr else none

/-- `case NPY_STRING: case NPY_UNICODE: case NPY_VOID:` -/
def flexible (ty : Nat) : Bool := ty = 18 || ty = 19 || ty = 20

/-- The branch `GB_TRIMBR`, `src/GroupBy.cpp:3727-3760`. -/
def xTrim (ty : Nat) : Option XFun :=
  (ctOf ty).map fun t => match t with
    | .bool => ⟨.trim, .bool, .f32, 11⟩
    | .f32 => ⟨.trim, .f32, .f32, 11⟩
    | _ => ⟨.trim, t, .f64, 12⟩

/-- The branch `GB_QUANTILE_MULT`, `src/GroupBy.cpp:3761-3795`. -/
def xQuant (ty : Nat) : Option XFun :=
  (ctOf ty).map fun t => match t with
    | .bool => ⟨.quantile, .bool, .bool, 0⟩
    | .f32 => ⟨.quantile, .f32, .f32, 11⟩
    | .f80 => ⟨.quantile, .f80, .f80, 13⟩
    | _ => ⟨.quantile, t, .f64, 12⟩

/-- The branch `GB_ROLLING_COUNT`, `src/GroupBy.cpp:3796-3811`. -/
def xCount (ty : Nat) : Option XFun :=
  (ctOf ty).bind fun t => match t with
    | .i8 | .i16 | .i32 | .i64 => some ⟨.rollCount, t, .i32, 5⟩
    | _ => none

/-- The branch `GB_ROLLING_DIFF`, `src/GroupBy.cpp:3812-3844`. -/
def xDiff (ty : Nat) : Option XFun :=
  (ctOf ty).bind fun t => match t with
    | .bool => none
    | _ => some ⟨.rollDiff, t, t, ty⟩

/-- The branch `GB_ROLLING_SHIFT`, `src/GroupBy.cpp:3845-3881`. -/
def xShift (ty : Nat) : Option XFun :=
  if flexible ty then some ⟨.rollShift, .raw, .raw, ty⟩ else (ctOf ty).map fun t => ⟨.rollShift, t, t, ty⟩

/-- The other numbers from 200 on, `src/GroupBy.cpp:3882-3953`. -/
def xRoll (func : Int) (ty : Nat) : Option XFun :=
  (xFunc2 func).bind fun n => (ctOf ty).bind fun t =>
    if func = 205 ∨ func = 206 ∨ func = 207 then
      if t = .bool then none else some ⟨n, t, .f64, 12⟩
    else match t with
      | .bool => some ⟨n, .i8, .i64, 7⟩
      | .f32 | .f64 | .f80 => some ⟨n, t, t, numOf t⟩
      | _ => some ⟨n, t, .i64, 7⟩

/-- The last branch, `src/GroupBy.cpp:3954-3991`. -/
def xPlain (func : Int) (ty : Nat) : Option XFun :=
  if flexible ty then (xFuncStr func).map fun n => ⟨n, .raw, .raw, ty⟩
  else (xFunc1 func).bind fun n => (ctOf ty).map fun t => ⟨n, t, t, ty⟩

/-- `GetGroupByXFunction`, `src/GroupBy.cpp:3722-3991`. -/
def xFunc (func : Int) (ty : Nat) : Option XFun :=
  if func = 105 then xTrim ty
  else if func = 106 then xQuant ty
  else if func = 204 then xCount ty
  else if func = 202 then xDiff ty
  else if func = 203 then xShift ty
  else if 200 ≤ func then xRoll func ty
  else xPlain func ty

/-- Size of the items which the function writes: `raw` functions write `itemSize` bytes, `src/GroupBy.cpp:1229-1234`, `2412-2415`,
`1838`. -/
def XFun.width (x : XFun) (item : Nat) : Nat := if x.U = .raw then item else x.U.size

/-- Size of the items of an array made by `AllocateNumpyArray` with the type `ty` and without the size of an item: the types of
items of any size get one byte, `src/RipTide.cpp:670-676`. -/
def freshItem (ty : Nat) : Nat :=
  match ctOf ty with
  | some t => t.size
  | none => 1

/-- Size of the items of `AllocateLikeResize`, `src/RipTide.cpp:849-872`: only bytes and text keep the size. -/
def likeItem (ty item : Nat) : Nat := if ty = 18 ∨ ty = 19 then item else freshItem ty

/-- Size of the items of `AllocateLikeNumpyArray`, `src/RipTide.cpp:790-845`. -/
def sameItem (out item : Nat) : Nat := if flexible out then item else freshItem out

/-! ## The calls -/

/-- A column as `BuildArrayInfo` describes it, `src/MultiKey.cpp:176-297`: `None` has the type 0, the length 0 and no array. -/
structure Col where
  ty : Nat
  item : Nat
  len : Nat
  isNone : Bool := false
  deriving DecidableEq, Repr

/-- The arguments of a call.  `keys` are the items in memory from the first item of `iKey` on to the end of its memory; `keyLen` is
the length of `iKey`.  `uniq` is `unique_rows`. -/
structure Req where
  cols : List Col
  keyTy : Nat
  keyDim : Nat := 1
  keyLen : Nat
  keys : List Int
  uniq : Int
  funcs : List Int
  lows : List Int
  highs : List Int
  deriving DecidableEq, Repr

/-- The items of memory which the functions take for the keys: `PyArray_BYTES(iKey)` read one after the other,
`src/GroupBy.cpp:4659`, whatever the distance of the items of the array is. -/
def seenKeys (mem : List Int) (start : Nat) : List Int := mem.drop start

/-- Why an exception is raised. -/
inductive Err where
  | keyDim | keyType | rows | funcs | bins | keyLength | noFunction | dims | memory | groupType | rollingLength
  deriving DecidableEq, Repr

/-- A result array: its type, the size of its items and their number. -/
structure Out where
  ty : Nat
  item : Nat
  items : Int
  deriving DecidableEq, Repr

/-- How a call ends: an exception with the number of result arrays which were made and never released, undefined behaviour, or
result arrays. -/
inductive Res where
  | err (e : Err) (lost : Nat)
  | undef
  | done (outs : List Out)
  deriving DecidableEq, Repr

/-- `PyLong_AsLongLongAndOverflow`: -1 for a number which does not fit. -/
def asI64 (v : Int) : Int := if -2 ^ 63 ≤ v ∧ v < 2 ^ 63 then v else -1

/-- `static_cast<GB_FUNCTIONS>(PyLong_AsLongLongAndOverflow(…))`, an enumeration of 32 bits, `src/GroupBy.cpp:4670`, `4730`. -/
def funcOf (v : Int) : Int := Int.bmod (asI64 v) (2 ^ 32)

/-- A range of bins is inside of an array of `n` items; the empty range is. -/
def within (lo hi n : Int) : Bool := decide (hi ≤ lo) || (decide (0 ≤ lo) && decide (hi ≤ n))

/-- `memset` of the items `[lo, hi)`: a negative size is a huge one. -/
def clears (lo hi n : Int) : Bool := decide (lo ≤ hi) && within lo hi n

/-- Whether the accumulator clears its bins by `memset`; the others use a loop, `src/GroupBy.cpp:461`, `520`, `562`, `620`. -/
def Name.memsets : Name → Bool
  | .min | .nanMin | .max | .nanMax => false
  | _ => true

/-- Whether `memset` begins at bin 0 instead of `binLow`, `src/GroupBy.cpp:398` and `883`. -/
def Name.clearsFromZero : Name → Bool
  | .nanSumFloat | .nanMeanFloat => true
  | _ => false

/-- The first loop or `memset` of an accumulator over an output of `n` items, `src/GroupBy.cpp:229-1175`. -/
def Name.start (k : Name) (lo hi n : Int) : Bool :=
  if k.memsets then (if k.clearsFromZero then clears 0 (hi - lo) n else clears lo hi n) else within lo hi n

/-- Whether the accumulator goes over all bins at the end whatever the rows are: those which copy the sums of float32 do so if
there are fewer bins than rows, `src/GroupBy.cpp:316`, `419`; the sums and extremes of other types do not. -/
def Name.finish (k : Name) (lo hi len n : Int) : Bool :=
  match k with
  | .sumFloat | .nanSumFloat => if hi - lo < len then within lo hi n else true
  | .sum | .nanSum | .min | .nanMin | .max | .nanMax => true
  | _ => within lo hi n

/-- The rows: the key of each of the `len` rows is read; if it is in `[lo, hi)` the items of its bin are accessed. -/
def rowsOk (keys : List Int) (len : Nat) (lo hi n : Int) : Bool :=
  decide (len ≤ keys.length) && (keys.take len).all fun k => if lo ≤ k ∧ k < hi then within k (k + 1) n else true

/-- Whether all accesses of a call of an accumulator are inside of its arrays of `n` bins; the temporary array has a place for each
bin of `[lo, hi)`.  `sumsquares` of the variances has `hi` places, `src/GroupBy.cpp:1018-1020`. -/
def Two.inside (f : Two) (keys : List Int) (len : Nat) (lo hi n : Int) : Bool :=
  f.name.start lo hi n && rowsOk keys len lo hi n && f.name.finish lo hi len n

/-- The temporary array of 8 bytes per bin, `src/GroupBy.cpp:4788-4797`: `malloc` is asked for 16 bytes more, `src/Recycler.cpp:56`,
so that only ranges of less than -2 bins are refused and the header does not fit for -1 and -2. -/
def tmpAlloc (f : Two) (lo hi : Int) (lost : Nat) : Option Res :=
  match f.tmp with
  | none => none
  | some _ => if 0 ≤ hi - lo then none else if -2 ≤ hi - lo then some .undef else some (.err .memory (lost + 1))

/-- What is known of a column after the loop of `GroupByAll32`. -/
structure Job where
  f : Two
  len : Nat
  lo : Int
  hi : Int
  deriving DecidableEq, Repr

/-- One turn of the loop, `src/GroupBy.cpp:4722-4814`; `i` arrays have been made before. -/
def prepare (r : Req) (n : Int) (i : Nat) (c : Col) : Except Res Job :=
  match r.highs[i]? with
  | none => .error .undef
  | some h =>
    match twoFunc (funcOf (r.funcs.getD i 0)) c.ty with
    | none => .error (.err .noFunction i)
    | some f =>
      if n < 0 then .error (.err .dims i)
      else match tmpAlloc f (asI64 (r.lows.getD i 0)) (asI64 h) i with
        | some e => .error e
        | none => .ok ⟨f, c.len, asI64 (r.lows.getD i 0), asI64 h⟩

/-- The loop over the columns. -/
def prepareAll (r : Req) (n : Int) : Nat → List Col → Except Res (List Job)
  | _, [] => .ok []
  | i, c :: cs =>
    match prepare r n i c with
    | .error e => .error e
    | .ok j =>
      match prepareAll r n (i + 1) cs with
      | .error e => .error e
      | .ok js => .ok (j :: js)

/-- The result array of a column. -/
def Job.result (n : Int) (j : Job) : Out := ⟨j.f.out, freshItem j.f.out, n⟩

/-- All columns are calculated, `GroupByCall`, `src/GroupBy.cpp:4098-4180`. -/
def runAll (r : Req) (n : Int) (jobs : List Job) : Res :=
  if jobs.all fun j => j.f.inside r.keys j.len j.lo j.hi n then .done (jobs.map (Job.result n)) else .undef

/-- The part of `GroupByAll32` which does each column by one thread, `src/GroupBy.cpp:4697-4843`. -/
def plain32 (r : Req) (n : Int) : Res :=
  match prepareAll r n 0 r.cols with
  | .error e => e
  | .ok jobs => runAll r n jobs

/-- The functions which are divided over the rows, `src/GroupBy.cpp:4680`. -/
def scatterable (func : Int) : Bool := (0 ≤ func && func ≤ 3) || (50 ≤ func && func ≤ 53)

/-- The call of the accumulators by several threads and of the gathering function, `src/GroupBy.cpp:4425-4569`: the parts of the
threads have `n` bins each.  A negative size of the temporary arrays is taken as undefined behaviour. -/
def scatterRun (r : Req) (n lo hi : Int) (func : Int) (f : Two) : Res :=
  if n < 0 then .err .dims 0
  else if (f.tmp.isSome && decide (hi < lo)) || !f.inside r.keys r.keyLen lo hi n || !within lo hi n then .undef
  else match gatherFunc func f.out with
    | none => .err .noFunction 1
    | some _ => .done [⟨f.out, freshItem f.out, n⟩]

/-- `GroupByAll32`, `src/GroupBy.cpp:4584-4849`, with `GroupBySingleOpMultithreaded`, `4398-4571`.  `work` says that a work item is
given, `src/MathWorker.h:381-392`.  The numbers of `listFuncNum` and the ranges are Python ints; `unique_rows + 1` does not
overflow.  Without a column the first entry of an empty array is read. -/
def all32 (work : Bool) (r : Req) : Res :=
  if r.keyDim ≠ 1 then .err .keyDim 0
  else if r.keyTy ≠ 1 ∧ r.keyTy ≠ 3 ∧ r.keyTy ≠ 5 ∧ r.keyTy ≠ 7 ∧ r.keyTy ≠ 9 then .err .keyType 0
  else match r.cols with
    | [] => if 0 ≠ r.funcs.length then .err .funcs 0 else if 0 ≠ r.lows.length then .err .bins 0 else .undef
    | c :: cs =>
      if !cs.all (fun d => d.len == c.len) then .err .rows 0
      else if r.cols.length ≠ r.funcs.length then .err .funcs 0
      else if r.cols.length ≠ r.lows.length then .err .bins 0
      else if c.len ≠ r.keyLen then .err .keyLength 0
      else if (r.uniq + 1) * 10 < r.keyLen ∧ cs = [] then
        match r.highs[0]? with
        | none => .undef
        | some h =>
          match twoFunc (funcOf (r.funcs.getD 0 0)) c.ty with
          | none => plain32 r (r.uniq + 1)
          | some f =>
            if scatterable (funcOf (r.funcs.getD 0 0)) && work then
              scatterRun r (r.uniq + 1) (asI64 (r.lows.getD 0 0)) (asI64 h) (funcOf (r.funcs.getD 0 0)) f
            else plain32 r (r.uniq + 1)
      else plain32 r (r.uniq + 1)

/-! ## `GroupByAllPack32` -/

/-- How the function of one column is called: the function, the size of the items of the column, its bins and the result array.
`rolling` results have an item for each row. -/
structure XJob where
  x : XFun
  item : Nat
  lo : Int
  hi : Int
  out : Out
  deriving DecidableEq, Repr

/-- Whether the function writes only to its result array.  The functions of groups write the items `[lo, hi)`; those of rows write
the items of rows of the groups, which exist (`Verif.Rolling`). -/
def XJob.inside (j : XJob) (func : Int) : Bool :=
  if 200 ≤ func then decide (j.x.width j.item ≤ j.out.item)
  else decide (j.hi ≤ j.lo) ||
    (decide (0 ≤ j.lo * (j.x.width j.item : Int)) && decide (j.hi * (j.x.width j.item : Int) ≤ j.out.items * (j.out.item : Int)))

/-- One turn of the loop, `src/GroupBy.cpp:5040-5125`; the length of rolling columns is compared again. -/
def xPrepare (r : Req) (n : Int) (i : Nat) (c : Col) : Except Res XJob :=
  match r.highs[i]? with
  | none => .error .undef
  | some h =>
    match xFunc (funcOf (r.funcs.getD i 0)) c.ty with
    | none => .error (.err .noFunction i)
    | some x =>
      if funcOf (r.funcs.getD i 0) = 105 ∨ funcOf (r.funcs.getD i 0) = 106 then
        if n < 0 then .error (.err .dims i)
        else .ok ⟨x, c.item, asI64 (r.lows.getD i 0), asI64 h, ⟨x.out, freshItem x.out, n⟩⟩
      else if 200 ≤ funcOf (r.funcs.getD i 0) then
        if c.len ≠ r.keyLen then .error (.err .rollingLength i)
        else if c.isNone then .error .undef
        else .ok ⟨x, c.item, asI64 (r.lows.getD i 0), asI64 h, ⟨x.out, sameItem x.out c.item, c.len⟩⟩
      else if c.isNone then .error .undef
      else if n < 0 then .error (.err .dims i)
      else .ok ⟨x, c.item, asI64 (r.lows.getD i 0), asI64 h, ⟨c.ty, likeItem c.ty c.item, n⟩⟩

/-- The loop over the columns and the calls, `src/GroupBy.cpp:5040-5154`. -/
def xPrepareAll (r : Req) (n : Int) : Nat → List Col → Except Res (List (XJob × Int))
  | _, [] => .ok []
  | i, c :: cs =>
    match xPrepare r n i c with
    | .error e => .error e
    | .ok j =>
      match xPrepareAll r n (i + 1) cs with
      | .error e => .error e
      | .ok js => .ok ((j, funcOf (r.funcs.getD i 0)) :: js)

/-- The part which does each column by one thread. -/
def plainX (r : Req) (n : Int) : Res :=
  match xPrepareAll r n 0 r.cols with
  | .error e => e
  | .ok jobs => if jobs.all fun j => j.1.inside j.2 then .done (jobs.map fun j => j.1.out) else .undef

/-- The functions which are divided over the bins, `src/GroupBy.cpp:4974`. -/
def bandable (func : Int) : Bool := (103 ≤ func && func ≤ 105) || func == 106

/-- `GroupBySingleOpMultiBands`, `src/GroupBy.cpp:4242-4392`: the bands are all `n` bins, and the result has the type of the function
with the size of an item which `AllocateNumpyArray` chooses. -/
def bandRun (n : Int) (c : Col) (x : XFun) : Res :=
  if n < 0 then .err .dims 0
  else if XJob.inside ⟨x, c.item, 0, n, ⟨x.out, freshItem x.out, n⟩⟩ 103 then .done [⟨x.out, freshItem x.out, n⟩] else .undef

/-- `GroupByAllPack32`, `src/GroupBy.cpp:4871-5188`: `groupTys` are the types of `iGroup`, `iFirst` and `nCount`, whose contents are
those of packed groups (`Verif.Median`, `Verif.Rolling`).  `work` says that threads are used. -/
def pack32 (work : Bool) (groupTys : Nat × Nat × Nat) (r : Req) : Res :=
  if groupTys.1 ≠ groupTys.2.1 ∨ groupTys.1 ≠ groupTys.2.2 then .err .groupType 0
  else if groupTys.1 ≠ 5 ∧ groupTys.1 ≠ 7 ∧ groupTys.1 ≠ 9 then .err .groupType 0
  else match r.cols with
    | [] => if 0 ≠ r.funcs.length then .err .funcs 0 else if 0 ≠ r.lows.length then .err .bins 0 else .undef
    | c :: cs =>
      if !cs.all (fun d => d.len == c.len) then .err .rows 0
      else if r.cols.length ≠ r.funcs.length then .err .funcs 0
      else if r.cols.length ≠ r.lows.length then .err .bins 0
      else if c.len ≠ r.keyLen then .err .keyLength 0
      else if cs = [] ∧ 65536 < r.keyLen then
        match r.highs[0]? with
        | none => .undef
        | some h =>
          match xFunc (funcOf (r.funcs.getD 0 0)) c.ty with
          | none => plainX r (r.uniq + 1)
          | some x =>
            if bandable (funcOf (r.funcs.getD 0 0)) && work && decide (0 < asI64 h - asI64 (r.lows.getD 0 0)) then
              bandRun (r.uniq + 1) c x
            else plainX r (r.uniq + 1)
      else plainX r (r.uniq + 1)

end Riptide.GroupBy.Entry
