import Verif.Reduce.Variance
import Verif.Reduce.Entry
/-! # Model of the call `Reduce` from Python, `src/Reduce.cpp`: which kernel runs for which type and function, and what is returned

Numbers of types are numpy's (`NPY_BOOL` is 0, `NPY_VOID` is 20), as on Linux. -/
namespace Riptide.Reduce
open Riptide.Work Riptide.Binary

/-- The type a kernel is made for, `src/Reduce.cpp:1180-1210`. -/
inductive KTy
  | bool
  | int (t : IT)
  | flt (f : FT)
  | longDouble
  deriving DecidableEq

/-- The `switch` on the type of the array which all tables of kernels share, `src/Reduce.cpp:647-679`, 742-774, 862-893, 979-1010,
1178-1209, 1527-1571, 1851-1889, 2130-2164, 2573-2607, 2645-2680, 2832-2865, 2898-2934; `b` is the type used for booleans, and
`CASE_NPY_INT64` is `NPY_LONG` or `NPY_LONGLONG` (`src/CommonInc.h:110-117`). -/
def elemOf (b : KTy) (ty : Nat) : Option KTy :=
  match ty with
  | 0 => some b
  | 1 => some (.int .i8)
  | 2 => some (.int .u8)
  | 3 => some (.int .i16)
  | 4 => some (.int .u16)
  | 5 => some (.int .i32)
  | 6 => some (.int .u32)
  | 7 => some (.int .i64)
  | 8 => some (.int .u64)
  | 9 => some (.int .i64)
  | 10 => some (.int .u64)
  | 11 => some (.flt .f32)
  | 12 => some (.flt .f64)
  | 13 => some .longDouble
  | _ => none

/-- The kernels; the last four are the functions `wrapper` of `src/Reduce.cpp:2948-3050`, which are never called. -/
inductive Impl
  | sum (k : KTy)
  | nanSum (k : KTy)
  | extreme (isMax : Bool) (k : KTy)
  | nanExtreme (isMax : Bool) (k : KTy)
  | nanAware
  | var (k : KTy)
  | nanVar (k : KTy)
  | meanWrapper
  | nanMeanWrapper
  | stdWrapper
  | nanStdWrapper
  deriving DecidableEq

/-- `ReduceMax` and `ReduceMin::GetScatterGatherFuncPtr`, `src/Reduce.cpp:1176-1209`, 1573-1620. -/
def extremePtr (isMax : Bool) (ty : Nat) : Option Impl := (elemOf (.int .i8) ty).map (.extreme isMax)

/-- `ReduceNanMin` and `ReduceNanMax::GetScatterGatherFuncPtr`, `src/Reduce.cpp:1853-1891`, 2127-2166: booleans have no invalid value. -/
def nanExtremePtr (isMax : Bool) (ty : Nat) : Option Impl :=
  if ty = 0 then extremePtr isMax ty else (elemOf .bool ty).map (.nanExtreme isMax)

/-- `GetReduceFuncPtr`, `src/Reduce.cpp:3079-3120`. -/
def reducePtr (ty func : Nat) : Option Impl :=
  match func with
  | 0 => (elemOf (.int .i8) ty).map .sum
  | 1 => (elemOf .bool ty).map .nanSum
  | 200 => extremePtr false ty
  | 210 => if ty = 11 then some .nanAware else extremePtr false ty
  | 201 => nanExtremePtr false ty
  | 202 => extremePtr true ty
  | 203 => nanExtremePtr true ty
  | 106 => (elemOf (.int .i8) ty).map .var
  | 107 => (elemOf .bool ty).map .nanVar
  | 102 => some .meanWrapper
  | 103 => some .nanMeanWrapper
  | 108 => some .stdWrapper
  | 109 => some .nanStdWrapper
  | _ => none

/-- `GetArgReduceFuncPtr`, `src/Reduce.cpp:3054-3075`: whether invalid values are skipped, whether the maximum is looked for, and the
type. -/
def argPtr (ty func : Nat) : Option (Bool × Bool × KTy) :=
  match func with
  | 204 => (elemOf (.int .i8) ty).map fun k => (false, false, k)
  | 206 => (elemOf (.int .i8) ty).map fun k => (false, true, k)
  | 205 => (elemOf (.int .i8) ty).map fun k => (true, false, k)
  | 207 => (elemOf (.int .i8) ty).map fun k => (true, true, k)
  | _ => none

/-- What the call does, `src/Reduce.cpp:3128-3360`. -/
inductive Out
  /-- `None`: left to numpy. -/
  | punt
  /-- `ValueError`, line 3392. -/
  | badCount
  /-- `ValueError`, lines 3170-3175. -/
  | noValid
  /-- `NULL` is returned without an error being set. -/
  | null
  /-- A null pointer is called or read, or the wrong alternative of `min_or_max` is asked for. -/
  | crash
  | int (n : Int)
  /-- A float: the sum of an array, as a double holding an integer. -/
  | sum (d : Dbl)
  /-- A float: the quotient. -/
  | mean (d : Dbl) (n : Nat)
  | var (q : Q)
  /-- The square root. -/
  | std (q : Q)
  /-- The double with the value of this number of format `f`. -/
  | flt (f : FT) (bits : Int)
  /-- The kernel runs, but its arithmetic is not modelled: `long double`, and sums of floats which are not whole numbers. -/
  | unmodelled (k : Impl)
  deriving DecidableEq

/-- A float as a double which is NaN or a whole number (simplification: other numbers are not modelled in sums),
`src/Reduce.cpp:2212-2267`. -/
def asDbl (f : FT) (b : Int) : Option Dbl :=
  if f.isNan b.toNat then some none
  else if (f.ofInt (f.trunc b.toNat) : Int) = b then some (some (f.trunc b.toNat)) else none

/-- The work of a core list. -/
abbrev Par := Option (List (List Nat))

/-- `WorkScatterGatherCall`, `src/Reduce.cpp:420-562`, with a kernel for sums; `none`: not modelled. -/
def sumAcc (junk : Int) (k : Impl) (xs : List Int) (par : Par) : Option SAcc :=
  match k with
  | .sum (.int t) => some (sumScatter (intBlock junk t) xs par)
  | .sum (.flt f) => (xs.mapM (asDbl f)).map fun ds => sumScatter (fltBlock junk) ds par
  | .nanSum .bool => some (sumScatter (nanSumBlock junk some) xs par)
  | .nanSum (.int t) => some (sumScatter (nanSumBlock junk fun x => if x = t.inv then none else some x) xs par)
  | .nanSum (.flt f) => (xs.mapM (asDbl f)).map fun ds => sumScatter (nanSumBlock junk id) ds par
  | _ => none

/-- `WorkScatterGatherCall`, `src/Reduce.cpp:420-562`, with a kernel for variances. -/
def varAcc (junk : Int) (mean : Q) (k : Impl) (xs : List Int) (par : Par) : Option VAcc :=
  match k with
  | .var (.int t) => some (varScatter (varBlock junk mean) (xs.map (intQ t)) par)
  | .var (.flt f) => (xs.mapM (asDbl f)).map fun ds =>
      varScatter (if f = .f32 then varBlockF32 mean else varBlock junk mean)
        (ds.map fun (x : Dbl) => x.map fun (n : Int) => (n : Rat)) par
  | .nanVar .bool => some (varScatter (nanVarBlock junk mean) (xs.map fun x => some (rnd x : Rat)) par)
  | .nanVar (.int t) => some (varScatter (nanVarBlock junk mean) (xs.map (intQ t)) par)
  | .nanVar (.flt f) => (xs.mapM (asDbl f)).map fun ds =>
      varScatter (nanVarBlock junk mean) (ds.map fun (x : Dbl) => x.map fun (n : Int) => (n : Rat)) par
  | _ => none

/-- `src/Reduce.cpp:3157-3178`: without a kernel nothing is run, and the index stays -1. -/
def argRun (k : Option (Bool × Bool × KTy)) (xs : List Int) : Out :=
  match k with
  | none => .noValid
  | some (skip, isMax, .int t) =>
    match (if skip then nanArgBest (dom isMax (.int t)) xs else argBest (dom isMax (.int t)) xs) with
    | none => .noValid
    | some p => .int p
  | some (skip, isMax, .flt f) =>
    match (if skip then nanArgBest (dom isMax (.flt f)) xs else argBest (dom isMax (.flt f)) xs) with
    | none => .noValid
    | some p => .int p
  | some (_, isMax, k) => .unmodelled (.extreme isMax k)

/-- `src/Reduce.cpp:3223-3253`: the second pass; `root` for `REDUCE_STD`. -/
def varRun (junk : Int) (k : Option Impl) (root : Bool) (mean : Q) (ddof : Int) (xs : List Int) (par : Par) : Out :=
  match k with
  | none => .crash
  | some k =>
    match varAcc junk mean k xs par with
    | none => .unmodelled k
    | some a => if root then .std (finishVar ddof a) else .var (finishVar ddof a)

/-- `src/Reduce.cpp:3198-3256`: mean, variance and standard deviation.  The pointers of the passes are not tested. -/
def meanRun (junk : Int) (ty func : Nat) (ddof : Int) (xs : List Int) (p1 p2 : Par) : Out :=
  match reducePtr ty (func % 2) with
  | none => .crash
  | some k =>
    match sumAcc junk k xs p1 with
    | none => .unmodelled k
    | some a =>
      if 103 < func then
        varRun junk (reducePtr ty (106 + func % 2)) (func - func % 2 == 108) (meanQ a) ddof xs p2
      else .mean (meanOf a).1 (meanOf a).2

/-- The type whose sum rules are used for the result, `src/Reduce.cpp:3266-3292`; `none`: a float. -/
def sumRet (ty : Nat) : Option IT :=
  if ty = 7 ∨ ty = 9 then some .i64
  else if ty = 8 ∨ ty = 10 then some .u64
  else if ty = 11 ∨ ty = 12 ∨ ty = 13 then none
  else some .i32

/-- The result of a sum, `src/Reduce.cpp:3264-3292`. -/
def sumOut (ty : Nat) (a : SAcc) : Out :=
  match sumRet ty with
  | none => .sum a.res
  | some t => match sumReturn t a with | .int n => .int n | .float d => .sum d

/-- The result of a minimum or maximum, `src/Reduce.cpp:3293-3354`: the alternative of `min_or_max` asked for must be the one the
kernel has stored (it stores its own type), else `std::get` throws.  For floats `resultOut` is returned. -/
def extremeOut (ty : Nat) (k : KTy) (r : Option Int) : Out :=
  match r with
  | none => .crash
  | some r =>
    match elemOf (.int .i8) ty with
    | some (.int t) => if k = .int t then .int r else .crash
    | some (.flt f) => .flt f r
    | _ => .null

/-- `src/Reduce.cpp:3257-3358`: sums and extremes. -/
def singleRun (junk : Int) (k : Impl) (ty func : Nat) (xs : List Int) (par : Par) : Out :=
  if func ≤ 1 then
    match sumAcc junk k xs par with
    | none => .unmodelled k
    | some a => sumOut ty a
  else if 200 ≤ func ∧ func ≤ 203 then
    match k with
    | .extreme isMax (.int t) => extremeOut ty (.int t) (reduceExtreme isMax (.int t) xs par)
    | .extreme isMax (.flt f) => extremeOut ty (.flt f) (reduceExtreme isMax (.flt f) xs par)
    | .nanExtreme isMax (.int t) => extremeOut ty (.int t) (reduceNanExtreme isMax (.int t) xs par)
    | .nanExtreme isMax (.flt f) => extremeOut ty (.flt f) (reduceNanExtreme isMax (.flt f) xs par)
    | k => .unmodelled k
  else .null

/-- `ReduceInternal`, `src/Reduce.cpp:3128-3360`, with the test of the type in `ObjectToDtype`, `src/RipTide.cpp:188-196`; the array
is not empty. -/
def internal (junk : Int) (ty : Int) (func : Nat) (ddof : Int) (xs : List Int) (p1 p2 : Par) : Out :=
  if ty < 0 ∨ 20 < ty then .punt
  else if 204 ≤ func ∧ func ≤ 207 then argRun (argPtr ty.toNat func) xs
  else
    match reducePtr ty.toNat func with
    | none => .punt
    | some k =>
      if 100 ≤ func ∧ func < 200 then meanRun junk ty.toNat func ddof xs p1 p2
      else singleRun junk k ty.toNat func xs p1

/-- An array: the number of its type, its shape, and the items from the data pointer on, one after the other
(`src/Reduce.cpp:3143-3147`). -/
structure Arr where
  ty : Int
  lay : Lay
  data : List Int

/-- An argument of the call, `src/Reduce.cpp:3370-3403`. -/
inductive Arg
  | arr (a : Arr)
  | int (n : Int)
  | other

/-- `PyLong_AsLongLong`, `src/Reduce.cpp:3382`, 3403: -1 and a pending `OverflowError` if the number does not fit. -/
def asLL (n : Int) : Int × Bool := if IT.i64.InRange n then (n, false) else (-1, true)

/-- `ddof`, `src/Reduce.cpp:3370-3385`: an integer as third argument, else 1. -/
def ddofOf (args : List Arg) : Int × Bool :=
  match args with
  | [_, _, .int n] => asLL n
  | _ => (1, false)

/-- The result, and whether an `OverflowError` is pending (Python then raises a `SystemError`). -/
structure Reply where
  pending : Bool
  out : Out
  deriving DecidableEq

/-- `Reduce`, `src/Reduce.cpp:3370-3427`.  The function number is cast to an enumeration of 32 bits (line 3406). -/
def reduceCall (junk : Int) (args : List Arg) (p1 p2 : Par) : Reply :=
  let d := ddofOf args
  if args.length = 2 ∨ args.length = 3 then
    match args with
    | .arr a :: f :: _ =>
      match reduceReads a.lay with
      | none => ⟨false, .crash⟩
      | some .punt =>
        match f with
        | .int n => ⟨d.2 || ((asLL n).2 && strideOk a.lay), .punt⟩
        | _ => ⟨d.2, .punt⟩
      | some (.at _) =>
        match f with
        | .int n => ⟨d.2 || (asLL n).2, internal junk a.ty ((asLL n).1 % 2 ^ 32).toNat d.1 a.data p1 p2⟩
        | _ => ⟨d.2, .punt⟩
    | _ => ⟨d.2, .punt⟩
  else ⟨false, .badCount⟩

end Riptide.Reduce
