import Verif.Arrays.ShiftCall
import Verif.Arrays.StackCall
import Verif.Common.Writes
import Verif.Work.Elem
/-!
# `SetItem`, `PutMask` and `ApplyRows` on arrays of any type and layout, `src/Convert.cpp:124-198`, `src/Convert.cpp:838-976` and `src/Convert.cpp:3446-4050`

There is one memory for all arrays, so that they may have bytes in common. Left out: how objects are counted (pointers are copied as bytes and `SetItem` does not count
them), arrays which are not aligned, 2^31 sections of `SetItem` or more, and that the array which `PutMask` makes of something else is never given back.
Sections and blocks which run at the same time are taken to run one after another, in any order.
-/
namespace Riptide.Nums.Assign
open Riptide.Nums Riptide.Arrays Riptide.Binary Riptide.Work
open Riptide.Nums.Shift (Move move apart)
open Riptide.Nums.Stack (loadItem Dtype asType common)
open Riptide.Convert.Call (Wide castItem badOf zeroOf fltOf)
open Riptide.GroupBy.Entry (CT inOf ctOf)

/-- A numpy array in memory: where its first item is (`PyArray_BYTES`, `src/Convert.cpp:3611`), its type, shape and strides, and what no call looks at: whether its
bytes are in the other order than those of the machine, whether it may be written to, and of dates the unit, as a number of nanoseconds. -/
structure View where
  base : Int
  type : Nat
  lay : Lay
  swapped : Bool
  writable : Bool
  unit : Nat
  deriving DecidableEq, Repr

/-- The first and the second argument, `src/Convert.cpp:3797-3798`: an array or something else. -/
inductive Given where
  | array (a : View)
  | other

/-- The third argument, `src/Convert.cpp:3801-3807`: an array, or something else with what `PyArray_FromAny` makes of it. -/
inductive Value where
  | array (a : View)
  | made (a : Option View)

/-- The arguments, `src/Convert.cpp:3791-3801`; more than three are let through and not looked at. -/
inductive Args where
  | few
  | three (arr mask : Given) (value : Value)

/-- What comes of a call: an exception, `False` and whether an exception is set all the same, `True` and the memory afterwards, or undefined behaviour. -/
inductive Reply where
  | error
  | refused (pending : Bool)
  | done (M : Mem)
  | undefined

/-- One item is copied, `src/Convert.cpp:3463` and `src/Convert.cpp:3517`: a load and a store, or `memcpy`, for which the two must not have a byte in common. -/
def copyItem (item : Nat) (M : Mem) (dst src : Int) : Option Mem :=
  if item = 1 ∨ item = 2 ∨ item = 4 ∨ item = 8 ∨ apart dst item src item = true then move M ⟨dst, src, item⟩ else none

/-- One round of `CopyItemBooleanMask`, `src/Convert.cpp:3457-3524`, with the memory and the number of values which are used up. -/
def setRow (item : Nat) (dst src mask : Int) (st : Mem × Nat) (i : Nat) : Option (Mem × Nat) :=
  (st.1 (mask + i)).bind fun b =>
    if b = 0#8 then some st else (copyItem item st.1 (dst + ((item * i : Nat) : Int)) (src + ((item * st.2 : Nat) : Int))).map fun M => (M, st.2 + 1)

/-- `CopyItemBooleanMask`, `src/Convert.cpp:3448-3526`, for the rows `[first, first + len)` with the values from `s` on. -/
def setRows (item : Nat) (dst src mask : Int) (first len s : Nat) (M : Mem) : Option Mem :=
  ((List.range' first len).foldlM (setRow item dst src mask) (M, s)).map Prod.fst

/-- One round of `CopyItemBooleanMaskScalar`, `src/Convert.cpp:3532-3600`. -/
def fillRow (item : Nat) (dst src mask : Int) (M : Mem) (i : Nat) : Option Mem :=
  (M (mask + i)).bind fun b => if b = 0#8 then some M else copyItem item M (dst + ((item * i : Nat) : Int)) src

/-- `CopyItemBooleanMaskScalar`, `src/Convert.cpp:3530-3603`, for the rows `[first, first + len)`. -/
def fillRows (item : Nat) (dst src mask : Int) (first len : Nat) (M : Mem) : Option Mem :=
  (List.range' first len).foldlM (fillRow item dst src mask) M

/-- `SumBooleanMask`, `src/Convert.cpp:3321-3444`, of the rows `[first, first + len)`; see `Verif/Mask` for how it counts. -/
def countAt (M : Mem) (mask : Int) (first len : Nat) : Option Nat :=
  ((List.range' first len).mapM fun (i : Nat) => M (mask + i)).map fun l => l.countP fun b => decide (b ≠ 0#8)

/-- The answer for what the copying comes to, `src/Convert.cpp:3623-3624`. -/
def answer : Option Mem → Reply
  | none => .undefined
  | some M => .done M

/-- `SetItemBooleanMask`, `src/Convert.cpp:3607-3629`. -/
def setSmall (M : Mem) (arr mask vals : View) : Reply :=
  match countAt M mask.base 0 arr.lay.len with
  | none => .undefined
  | some bsum =>
    if 0 < bsum ∧ bsum = vals.lay.len then answer (setRows arr.lay.item arr.base vals.base mask.base 0 arr.lay.len 0 M)
    else .refused false

/-- What `pCounts` has, `src/Convert.cpp:3676-3695`; `calls` is the order in which the sections are counted. -/
def countAll (M : Mem) (mask : Int) (n : Nat) (calls : List Nat) : Option (List Nat) :=
  (calls.mapM fun (t : Nat) => (countAt M mask (part * t) (sectionLen n t)).map fun c => (t, c)).bind fun ws =>
    (runWrites (sections n) ws).bind fun cs => cs.mapM id

/-- The sections with values of their own, `src/Convert.cpp:3710-3733`. -/
def setSections (M : Mem) (arr mask vals : View) (counts : List Nat) (calls : List Nat) : Option Mem :=
  calls.foldlM (fun M t => setRows arr.lay.item arr.base vals.base mask.base (part * t) (sectionLen arr.lay.len t) ((counts.take t).sum) M) M

/-- The sections with one value, `src/Convert.cpp:3743-3764`. -/
def fillSections (M : Mem) (arr mask vals : View) (calls : List Nat) : Option Mem :=
  calls.foldlM (fun M t => fillRows arr.lay.item arr.base vals.base mask.base (part * t) (sectionLen arr.lay.len t) M) M

/-- `SetItemBooleanMaskLarge`, `src/Convert.cpp:3637-3773`. `room` tells whether there is memory for `pCounts`, which is asked for above a megabyte. -/
def setLarge (room : Bool) (M : Mem) (arr mask vals : View) (calls1 calls2 : List Nat) : Reply :=
  if 1048576 < sections arr.lay.len * 8 ∧ room = false then .refused false
  else match countAll M mask.base arr.lay.len calls1 with
    | none => .undefined
    | some counts =>
      if 0 < counts.sum ∧ counts.sum = vals.lay.len then answer (setSections M arr mask vals counts calls2)
      else if 0 < counts.sum ∧ vals.lay.len = 1 then answer (fillSections M arr mask vals calls2)
      else .refused false

/-- What `SetItem` asks of the arrays, `src/Convert.cpp:3819-3830`. -/
def setFits (arr mask vals : View) : Bool :=
  decide (arr.lay.dims.length = 1 ∧ 0 < arr.lay.item ∧ vals.lay.dims.length = 1 ∧ vals.lay.item = arr.lay.item ∧ arr.type = vals.type ∧ mask.type = 0 ∧
    arr.lay.len = mask.lay.len)

/-- With three arrays, `src/Convert.cpp:3813-3851`. -/
def setArrays (room : Bool) (M : Mem) (arr mask vals : View) (calls1 calls2 : List Nat) : Reply :=
  if setFits arr mask vals then
    if arr.lay.len ≤ part then setSmall M arr mask vals else setLarge room M arr mask vals calls1 calls2
  else .refused false

/-- `SetItem`, `src/Convert.cpp:3782-3870`. -/
def setItem (room : Bool) (M : Mem) (args : Args) (calls1 calls2 : List Nat) : Reply :=
  match args with
  | .few => .error
  | .three _ _ (.made none) => .refused true
  | .three (.array arr) (.array mask) (.array vals) => setArrays room M arr mask vals calls1 calls2
  | .three (.array arr) (.array mask) (.made (some vals)) => setArrays room M arr mask vals calls1 calls2
  | .three _ _ _ => .refused false

/-! ### PutMask -/

/-- The functions of `src/Convert.cpp:124-198` with the types of their template. -/
inductive Kern where
  | fast (size : Nat)
  | toBool (T : CT)
  | ints (T U : CT)
  | floats (T U : CT)
  deriving DecidableEq, Repr

/-- `GetConversionPutMask2` and `GetConversionPutMask2Float`, `src/Convert.cpp:839-906`. -/
def kernOf (T U : CT) : Kern :=
  if U = .bool then .toBool T else if T = .f32 ∨ T = .f64 ∨ T = .f80 then .floats T U else .ints T U

/-- `GetConversionPutMask`, `src/Convert.cpp:909-976`: booleans are read as `int8_t`. -/
def putKern (ti to : Nat) : Option Kern :=
  if ti = to then (ctOf ti).map fun T => .fast T.size
  else match inOf ti, ctOf to with
    | some T, some U => some (kernOf T U)
    | _, _ => none

/-- `x == x` is false, `src/Convert.cpp:188`; for a `long double` this is not modelled further. -/
def isNanOf (nan : Int → Bool) (T : CT) (x : Int) : Bool :=
  match fltOf T with
  | some f => f.isNan x.toNat
  | none => nan x

/-- One item, `src/Convert.cpp:124-198`; what is taken for invalid in the input is `GetDefaultForType` of its type (`src/Convert.cpp:3953`), which is false for booleans. -/
def putItem (w : Wide) (nan : Int → Bool) (ti : Nat) : Kern → Int → Option Int
  | .fast _, x => some x
  | .toBool T, x => some (if zeroOf w T x then 0 else 1)
  | .ints T U, x => if x ≠ (if ti = 0 then 0 else badOf w T) then castItem w T U x else some (badOf w U)
  | .floats T U, x => if isNanOf nan T x then some (badOf w U) else castItem w T U x

/-- A store of a value of `n` bytes, as `pOut[i] = …` of `src/Convert.cpp:152`. -/
def storeItem (M : Mem) (o : Int) (n : Nat) (x : Int) : Option Mem :=
  if (List.range n).all (fun (i : Nat) => (M (o + i)).isSome) then
    some fun p => if o ≤ p ∧ p < o + n then some (BitVec.ofNat 8 ((x % 2 ^ (8 * n)).toNat / 256 ^ (p - o).toNat)) else M p
  else none

/-- One round of the functions, `src/Convert.cpp:132-135`, `src/Convert.cpp:148-158`. The size of an item is that of its type. -/
def putRow (w : Wide) (nan : Int → Bool) (k : Kern) (arr mask vals : View) (M : Mem) (i : Nat) : Option Mem :=
  (M (mask.base + i)).bind fun b =>
    if b = 0#8 then some M
    else match k with
      | .fast n => move M ⟨arr.base + ((arr.lay.item * i : Nat) : Int), vals.base + ((vals.lay.item * i : Nat) : Int), n⟩
      | k => (loadItem vals.type M (vals.base + ((vals.lay.item * i : Nat) : Int))).bind fun x => (putItem w nan vals.type k x).bind fun y =>
          storeItem M (arr.base + ((arr.lay.item * i : Nat) : Int)) arr.lay.item y

/-- The rows in the order in which they are done, `src/Convert.cpp:3961`. Without threads one call does them all and counts them with an `int`
(`src/Convert.cpp:130`, `src/Convert.cpp:146`). -/
def putRows (w : Wide) (nan : Int → Bool) (k : Kern) (arr mask vals : View) (M : Mem) (par : Option (List Nat)) : Reply :=
  if par = none ∧ 2147483648 ≤ arr.lay.len then .undefined
  else answer ((elemWork (fun _ => some ()) arr.lay.len par).bind fun ws => (ws.map Prod.fst).foldlM (putRow w nan k arr mask vals) M)

/-- What `PutMask` asks of the arrays, `src/Convert.cpp:3900-3912`. -/
def putFits (arr mask vals : View) : Bool :=
  decide (mask.type = 0 ∧ arr.lay.len = mask.lay.len ∧ (arr.lay.len ≤ 1 ∨ arr.lay.strides.head? = some (arr.lay.item : Int)) ∧ arr.lay.len = vals.lay.len)

/-- With three arrays, `src/Convert.cpp:3896-3966`. -/
def putArrays (w : Wide) (nan : Int → Bool) (M : Mem) (arr mask vals : View) (par : Option (List Nat)) : Reply :=
  if putFits arr mask vals then
    match putKern vals.type arr.type with
    | none => .refused false
    | some k => putRows w nan k arr mask vals M par
  else .refused false

/-- `PutMask`, `src/Convert.cpp:3875-3975`: whether the third argument could be made an array is not looked at before its type is. -/
def putMask (w : Wide) (nan : Int → Bool) (M : Mem) (args : Args) (par : Option (List Nat)) : Reply :=
  match args with
  | .few => .error
  | .three (.array _) (.array _) (.made none) => .undefined
  | .three _ _ (.made none) => .refused true
  | .three (.array arr) (.array mask) (.array vals) => putArrays w nan M arr mask vals par
  | .three (.array arr) (.array mask) (.made (some vals)) => putArrays w nan M arr mask vals par
  | .three _ _ _ => .refused false

/-! ### ApplyRows -/

/-- The third argument of `ApplyRows`, `src/Convert.cpp:3996-4008`: not callable, callable but no function (`GetFunctionObject`,
`src/RipTide.cpp:469-489`), or a function. -/
inductive Func where
  | data
  | callable
  | function
  deriving DecidableEq, Repr

/-- What comes of `ApplyRows`: an exception, `NULL` without one, or undefined behaviour. There is no way to an answer. -/
inductive Row where
  | error
  | silent
  | undefined
  deriving DecidableEq, Repr

/-- The types for which `GetDefaultForType` (`src/RipTide.cpp:2122-2177`) does not throw. -/
def hasDefault (ty : Int) : Bool := decide (0 ≤ ty ∧ ty ≤ 13 ∨ ty = 18 ∨ ty = 19)

/-- With a function and the table, `src/Convert.cpp:4021-4046`. -/
def applyTable (es : List Info.Entry) (d : Dtype) : Row :=
  if (asType d).1 ≠ -1 then
    if (asType d).1 < 0 ∨ 13 < (asType d).1 then .error else .silent
  else if hasDefault (common es) then (if (asType d).2 then .error else .silent) else .undefined

/-- `ApplyRows`, `src/Convert.cpp:3986-4050`, with `args` arguments. With two of them the third is fetched and not there: an exception is set, but the type of the null
pointer is asked for its name. -/
def applyRows (table : Bool) (copies : Nat → Bool) (args : Nat) (o : Info.Obj) (d : Dtype) (f : Func) : Row :=
  if args < 2 then .error
  else if args = 2 then .undefined
  else match f with
    | .data => .error
    | .callable => .silent
    | .function =>
      match Info.build table copies true true o with
      | .refused => .error
      | .silent => .silent
      | .undefined => .undefined
      | .ok es _ => applyTable es d

end Riptide.Nums.Assign
