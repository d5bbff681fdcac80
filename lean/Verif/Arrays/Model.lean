import Verif.Common.Num
import Verif.Work.Elem
import Verif.Convert.Model
/-! # Model of the array helpers of `src/Convert.cpp:2526-3975`

Upcasting, stacking, shifting, trimming strings, and assignment through a mask. `none` is undefined behaviour. -/
namespace Riptide.Arrays
open Riptide.Work

/-! ### GetUpcastDtype -/

/-- The running maxima of `GetUpcastDtype`, `src/Convert.cpp:2602-2607`. -/
structure Mx where
  float : Int
  int : Int
  uint : Int
  string : Int
  object : Int
  abort : Int
  deriving DecidableEq

/-- One array, `src/Convert.cpp:2609-2661`. The numbers of the numpy types: 0 bool, 1 to 10 the integers (signed ones are odd),
11 to 13 the floats, 17 object, 18 string, 19 unicode. -/
def mxStep (m : Mx) (d : Int) : Mx :=
  if d ≤ 13 then
    if d ≥ 11 then { m with float := if d > m.float then d else m.float }
    else if d % 2 ≠ 0 ∨ d = 0 then { m with int := if d > m.int then d else m.int }
    else { m with uint := if d > m.uint then d else m.uint }
  else if d = 17 then { m with object := 17 }
  else if d = 19 then { m with string := 19 }
  else if d = 18 then { m with string := if m.string < 18 then 18 else m.string }
  else { m with abort := d }

/-- The decision, `src/Convert.cpp:2663-2757`, where `long` has 8 bytes. -/
def mxResult (m : Mx) : Int :=
  if m.abort > 0 then -1
  else if m.object = 17 then 17
  else if m.string > 0 then m.string
  else if m.float > 0 then
    if m.float > 11 then m.float
    else if m.int > 3 ∨ m.uint > 4 then 12
    else m.float
  else if m.uint > 0 then
    if m.int > m.uint then m.int
    else if m.int = -1 then m.uint
    else if m.uint = 10 ∨ m.uint = 8 then 12
    else if m.int = 7 ∨ m.int = 9 then 12
    else m.uint + 1
  else m.int

/-- `GetUpcastDtype`, `src/Convert.cpp:2600-2758`. -/
def upcast (ds : List Int) : Int := mxResult (ds.foldl mxStep ⟨-1, -1, -1, -1, -1, 0⟩)

/-! ### RemoveTrailingSpaces -/

/-- The inner loop of `TrailingSpaces` and `TrailingSpacesUnicode`, `src/Convert.cpp:2533-2538`, 2550-2555, on the item that
starts at `s`; `e` units are left. -/
def trimLoop (s : Nat) : Nat → List Nat → List Nat
  | 0, l => l
  | e + 1, l => if l.getD (s + e) 1 = 32 ∨ l.getD (s + e) 1 = 0 then trimLoop s e (l.set (s + e) 0) else l

/-- `RemoveTrailingSpaces`, `src/Convert.cpp:2529-2598`: `n` items of `w` units, one after the other from the start of the
memory `l`, whatever the stride of the array. -/
def trimAll (w n : Nat) (l : List Nat) : List Nat := (List.range n).foldl (fun l i => trimLoop (i * w) w l) l

/-! ### HStack -/

/-- First row of array `t` in the output, `src/Convert.cpp:2881-2889`, 2967-2985`. -/
def offset (lens : List Nat) (t : Nat) : Nat := (lens.take t).sum

/-- The work on array `t`: `f t i` is the converted row `i`. -/
def stackPiece {α : Type} (f : Nat → Nat → Option α) (lens : List Nat) (t : Nat) : Option (List (Nat × α)) :=
  (List.range (lens.getD t 0)).mapM fun i => (f t i).map fun v => (offset lens t + i, v)

/-- `HStack`, `src/Convert.cpp:2905-2949`, 2996-3043: the arrays in the order `calls` of their completion. -/
def hstack {α : Type} (f : Nat → Nat → Option α) (lens : List Nat) (calls : List Nat) : Option (List (Option α)) :=
  (calls.mapM (stackPiece f lens)).bind fun ws => runWrites lens.sum ws.flatten

/-- When the arrays are done one after the other and when by the pool, `src/Convert.cpp:2907`, 2998. -/
inductive StackSched (workers : Nat) (nt : Bool) (lens : List Nat) : List Nat → Prop
  | serial (h : lens.length < 2 ∨ lens.sum ≤ chunk) : StackSched workers nt lens (List.range lens.length)
  | pool (calls : List Nat) (h : ¬ (lens.length < 2 ∨ lens.sum ≤ chunk))
      (hw : CountedWork workers lens.length nt calls) : StackSched workers nt lens calls

/-- One item of `ConvertSafeStringCopy`, `src/Convert.cpp:45-110`: copied, filled up with zeros or cut. -/
def padItem (w : Nat) (x : List Nat) : List Nat :=
  if x.length < w then x ++ List.replicate (w - x.length) 0 else x.take w

/-- Integer types of the numpy numbers on 64-bit Linux (`CASE_NPY_INT32` etc.); `none` for the floats. Booleans are converted
as `int8_t` (`src/Convert.cpp:764`). -/
def intType (d : Int) : Option IT :=
  if d = 0 then some .i8 else if d = 1 then some .i8 else if d = 2 then some .u8 else if d = 3 then some .i16
  else if d = 4 then some .u16 else if d = 5 then some .i32 else if d = 6 then some .u32
  else if d = 7 ∨ d = 9 then some .i64 else if d = 8 ∨ d = 10 then some .u64 else none

/-- Conversion of a row of an integer array of type number `d` to the integer type number `r` (`GetConversionFunctionSafe`,
`src/Convert.cpp:753-796`): a plain copy for the same number, else `OneStubConvertSafe`. -/
def convInt (d r : Int) (x : Int) : Option Int :=
  if d = r then some x
  else (intType d).bind fun a => (intType r).map fun b => Convert.safeInt a b x

/-- `HStack` of integer arrays, each with its type number, to the type number `r` (`src/Convert.cpp:2953-3043`). -/
def hstackIntsTo (r : Int) (arrays : List (Int × List Int)) (calls : List Nat) : Option (List (Option Int)) :=
  hstack (fun t i => arrays[t]?.bind fun a => a.2[i]?.bind fun x => convInt a.1 r x)
    (arrays.map fun a => a.2.length) calls

/-- `HStack` without a type number (`src/Convert.cpp:2828-2830`). -/
def hstackInts (arrays : List (Int × List Int)) (calls : List Nat) : Option (List (Option Int)) :=
  hstackIntsTo (upcast (arrays.map Prod.fst)) arrays calls

/-- `HStack` of string arrays of different widths, each given with its width (`src/Convert.cpp:2832-2949`). -/
def hstackStrs (arrays : List (Nat × List (List Nat))) (calls : List Nat) : Option (List (Option (List Nat))) :=
  let w := arrays.foldl (fun m a => if a.1 > m then a.1 else m) 0
  hstack (fun t i => arrays[t]?.bind fun a => a.2[i]?.map (padItem w)) (arrays.map fun a => a.2.length) calls

/-- The input sentinel of `HomogenizeArrays` and `PutMask`, `GetDefaultForType` (`src/RipTide.cpp:2098-2177`); unlike
`GetInvalid` (`src/Convert.cpp:1029-1038`) it is false for booleans. -/
def defaultFor (d : Int) : Option Int := if d = 0 then some 0 else (intType d).map IT.inv

/-- One integer or boolean row of type number `d` converted to the integer type number `r` by `HomogenizeArrays`
(`src/Convert.cpp:3278-3290`) and by `PutMask` (lines 139-160, 909-976, 3953-3954). -/
def convDefault (d r : Int) (x : Int) : Option Int :=
  if d = r then some x
  else (defaultFor d).bind fun bad => (intType r).map fun b => if x ≠ bad then b.wrap x else b.inv

/-- `HomogenizeArrays` of integer or boolean arrays, each with its type number, when the common type is an integer type;
`src/Convert.cpp:3260-3301`. -/
def homogenize (arrays : List (Int × List Int)) : Option (List (List Int)) :=
  let r := upcast (arrays.map Prod.fst)
  arrays.mapM fun a => a.2.mapM (convDefault a.1 r)

/-- Whether `HomogenizeArrays` with automatic type calls a null conversion function or throws out of `GetDefaultForType`,
`src/Convert.cpp:3260-3290` and `src/RipTide.cpp:2098-2177`: the common type is that of objects, or of strings with a number among the arrays. -/
def homogenizeUb (ds : List Int) : Bool :=
  decide (upcast ds = 17) || (decide (13 < upcast ds) && ds.any (fun d => decide (d ≤ 13)))

/-! ### ShiftArrays -/

/-- `memmove` of `n` items from `src` to `dst` inside `l`. -/
def memmove {α : Type} (l : List α) (dst src n : Nat) : Option (List α) :=
  if dst + n ≤ l.length ∧ src + n ≤ l.length then some (l.take dst ++ (l.drop src).take n ++ l.drop (dst + n)) else none

/-- One array of one dimension, `src/Convert.cpp:3166-3197`. -/
def shift1 {α : Type} (l : List α) (k : Int) : Option (List α) :=
  let delta := if k < 0 then (l.length : Int) + k else (l.length : Int) - k
  if delta > 0 then
    if k < 0 then memmove l (-k).toNat 0 delta.toNat else memmove l 0 k.toNat delta.toNat
  else some l

/-- The columns of an array in Fortran order, `src/Convert.cpp:3137-3162`. -/
def shiftCols {α : Type} (rows : Nat) (k : Int) : Nat → Nat → List α → Option (List α)
  | 0, _, l => some l
  | c + 1, p, l =>
    let n := if k < 0 then (rows : Int) + k else (rows : Int) - k
    if n > 0 then
      (if k < 0 then memmove l (p + (-k).toNat) p n.toNat else memmove l p (p + k.toNat) n.toNat).bind
        (shiftCols rows k c (p + rows))
    else some l

/-- A one-dimensional view of memory `mem`: `BuildArrayInfo` (`src/MultiKey.cpp:209-224`) replaces an array that is not
contiguous by a copy (`EnsureContiguousArray`, `src/RipTide.cpp:242-258`), which is shifted and thrown away. -/
def shiftView {α : Type} (mem : List α) (stride n : Nat) (k : Int) : Option (List α) :=
  if stride = 1 ∨ n ≤ 1 then (shift1 (mem.take n) k).map fun l => l ++ mem.drop n else some mem

/-! ### SetItem -/

/-- `SETITEM_PARTITION_SIZE`, `src/Convert.cpp:3633`. -/
def part : Nat := 16384

/-- The writes of `CopyItemBooleanMask`, `src/Convert.cpp:3448-3527`, for rows `[i, i + n)`, taking values from `s` on. The
typed cases differ only in the type of the copy. -/
def copyMask {α : Type} (mask : List Bool) (vals : List α) (i s : Nat) : Nat → Option (List (Nat × α))
  | 0 => some []
  | n + 1 =>
    mask[i]?.bind fun b =>
      if b then vals[s]?.bind fun v => (copyMask mask vals (i + 1) (s + 1) n).map fun w => (i, v) :: w
      else copyMask mask vals (i + 1) s n

/-- The writes of `CopyItemBooleanMaskScalar`, `src/Convert.cpp:3528-3603`. -/
def copyScalar {α : Type} (mask : List Bool) (v : α) (i : Nat) : Nat → Option (List (Nat × α))
  | 0 => some []
  | n + 1 =>
    mask[i]?.bind fun b => (copyScalar mask v (i + 1) n).map fun w => if b then (i, v) :: w else w

/-- Assignments to existing memory. -/
def store {α : Type} (l : List α) (ws : List (Nat × α)) : Option (List α) :=
  ws.foldlM (fun l w => if w.1 < l.length then some (l.set w.1 w.2) else none) l

/-- True entries of `n` rows from `i` on; `SumBooleanMask` (`src/Convert.cpp:3321-3444`) is a copy of the one proved exact in
`Verif/Mask`. -/
def sumMask (mask : List Bool) (i n : Nat) : Nat := ((mask.drop i).take n).count true

/-- Number of sections, `src/Convert.cpp:3656`. -/
def sections (n : Nat) : Nat := (n + (part - 1)) / part

/-- Rows of section `t`, `src/Convert.cpp:3678-3684`. -/
def sectionLen (n t : Nat) : Nat :=
  if t = sections n - 1 then (if n % part = 0 then part else n % part) else part

/-- `SetItem` on contiguous memory: `l`, `mask` and `vals` are the items from the first element on, `n` and `nv` the lengths
of array and values; the lengths of array and mask are the same. `calls1` and `calls2` are the orders in which the
sections are counted and copied. The result tells whether the assignment was done. `src/Convert.cpp:3607-3629`,
3637-3773, 3782-3870. Simplification: the values do not overlap the array. -/
def setItem {α : Type} (l : List α) (mask : List Bool) (vals : List α) (n nv : Nat) (calls1 calls2 : List Nat) :
    Option (Bool × List α) :=
  if n ≤ part then
    let bsum := sumMask mask 0 n
    if bsum > 0 ∧ bsum = nv then (copyMask mask vals 0 0 n).bind fun w => (store l w).map fun l' => (true, l')
    else some (false, l)
  else
    (runWrites (sections n) (calls1.map fun t => (t, sumMask mask (part * t) (sectionLen n t)))).bind fun cs =>
      (cs.mapM id).bind fun counts =>
        let bsum := counts.sum
        if bsum > 0 ∧ bsum = nv then
          (calls2.mapM fun t => copyMask mask vals (part * t) ((counts.take t).sum) (sectionLen n t)).bind fun ws =>
            (store l ws.flatten).map fun l' => (true, l')
        else if bsum > 0 ∧ nv = 1 then
          vals[0]?.bind fun v =>
            (calls2.mapM fun t => copyScalar mask v (part * t) (sectionLen n t)).bind fun ws =>
              (store l ws.flatten).map fun l' => (true, l')
        else some (false, l)

/-! ### PutMask -/

/-- `PutMask`, `src/Convert.cpp:3875-3975`: row `i` is replaced by the converted value when the mask is set. `l`, `mask`
and `vals` are the items from the first element on; only the stride of the array itself is checked. Rows are
written under the schedule of `DoMultiThreadedChunkWork`; a row that is not masked is not written. -/
def putMask {α β : Type} (conv : β → Option α) (l : List α) (mask : List Bool) (vals : List β) (n : Nat)
    (par : Option (List Nat)) : Option (List α) :=
  (elemWork (fun i => mask[i]?.bind fun b => if b then vals[i]?.bind fun v => (conv v).map some else some none) n par).bind
    fun ws => store l (ws.filterMap fun w => w.2.map fun v => (w.1, v))

end Riptide.Arrays
