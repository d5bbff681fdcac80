import Verif.Arrays.Info
import Verif.Arrays.Model
import Verif.Convert.Call
/-!
# `HStack`, `HomogenizeArrays` and `GetUpcastNum` on arrays of any type and layout, `src/Convert.cpp:2764-3060` and `src/Convert.cpp:3214-3310`

Left out: lists of 2^31 arrays or more, what is lost when an exception is raised (the table of `BuildArrayInfo` and `pHStack` are not given back on some ways
out), and in `HomogenizeArrays` the lack of memory for a result and arrays which may not be written to.
-/
namespace Riptide.Nums.Stack
open Riptide.Nums Riptide.Arrays Riptide.Nums.Info
open Riptide.Convert.Call (Wide Conv safeKern convItem castItem badOf intOf)
open Riptide.GroupBy.Entry (CT inOf)

/-- An item as the functions of `src/Convert.cpp:200-505` read it: an integer for the integer types, of which booleans are `int8_t`
(`src/Convert.cpp:764`), a pattern for floats. -/
def valueOf (ty b : Nat) : Int :=
  match (inOf ty).bind intOf with
  | some t => t.wrap b
  | none => b

/-- A load of an item of the type `ty`, as in `src/Convert.cpp:284-324`. -/
def loadItem (ty : Nat) (m : Mem) (o : Int) : Option Int :=
  match inOf ty with
  | some T => (load m o T.size).map (valueOf ty)
  | none => none

/-- Which memory there is: for the table and for the copies (see `Info.build`), for `pHStack` (`src/Convert.cpp:2879` and `src/Convert.cpp:2964`), and for the result. -/
structure Room where
  table : Bool
  copies : Nat → Bool
  work : Bool
  result : Bool

/-- What comes of `HStack`: an exception, `NULL` without one, undefined behaviour, an array of numbers, or an array of strings with the size of an item. -/
inductive Reply where
  | error
  | silent
  | undefined
  | nums (type : Nat) (items : List (Option Int))
  | strs (type item : Nat) (items : List (Option (List (BitVec 8))))
  deriving DecidableEq, Repr

/-- Row `i` of array `t`, converted to the type `r`, `src/Convert.cpp:2981` and `src/Convert.cpp:3002-3003`. The distance of two rows is the size of an item, as
`BuildArrayInfo` refuses the others. -/
def numRow (w : Wide) (r : Nat) (es : List Entry) (t i : Nat) : Option Int :=
  es[t]?.bind fun e => (safeKern e.type r).bind fun c => (loadItem e.type e.data ((i * e.item : Nat) : Int)).bind (convItem w c)

/-- An array which is refused, `src/Convert.cpp:2971`. -/
def bad (e : Entry) : Bool := decide (13 < e.type ∨ e.ndim ≠ 1)

/-- "Path for non-strings", `src/Convert.cpp:2956-3045`. Without memory for `pHStack` the first array which is not refused is written through a null pointer. -/
def stackNums (w : Wide) (room : Room) (r : Nat) (es : List Entry) (calls : List Nat) : Reply :=
  match es, room.work with
  | e :: _, false => if bad e then .error else .undefined
  | _, _ =>
    if es.any bad then .error
    else if room.result = false then .error
    else match hstack (numRow w r es) (es.map (·.len)) calls with
      | none => .undefined
      | some l => .nums r l

/-- The bytes of an item, `src/Convert.cpp:51`, `src/Convert.cpp:65` and `src/Convert.cpp:80-83`. -/
def loadStr (m : Mem) (o : Int) (n : Nat) : Option (List (BitVec 8)) := (List.range n).mapM fun (j : Nat) => m (o + j)

/-- One item of `ConvertSafeStringCopy`, `src/Convert.cpp:45-110`: copied, filled up with zeros or cut. -/
def fill (w : Nat) (x : List (BitVec 8)) : List (BitVec 8) := if x.length < w then x ++ List.replicate (w - x.length) 0 else x.take w

/-- Row `i` of array `t`, `src/Convert.cpp:2911-2912`. -/
def strRow (w : Nat) (es : List Entry) (t i : Nat) : Option (List (BitVec 8)) :=
  es[t]?.bind fun e => (loadStr e.data ((i * e.item : Nat) : Int) e.item).map (fill w)

/-- `maxItemSize`, `src/Convert.cpp:2845-2848`. -/
def widest (es : List Entry) : Nat := es.foldl (fun m e => if m < e.item then e.item else m) 0

/-- "Path for strings", `src/Convert.cpp:2867-2953`: whatever the number of dimensions is, all items are taken in the order in which they are in memory.
Strings of no bytes get one (`AllocateNumpyArray`, `src/RipTide.cpp:671-675`). There is an array, for the type is that of one. -/
def stackStrs (room : Room) (r : Nat) (es : List Entry) (calls : List Nat) : Reply :=
  if room.work = false then .undefined
  else if room.result = false then .error
  else match hstack (strRow (if widest es = 0 then 1 else widest es) es) (es.map (·.len)) calls with
    | none => .undefined
    | some l => .strs r (if widest es = 0 then 1 else widest es) l

/-- `GetUpcastDtype` of the table, `src/Convert.cpp:2600-2758`; `None` counts as an array of booleans. -/
def common (es : List Entry) : Int := upcast (es.map fun e => (e.type : Int))

/-- With the table, `src/Convert.cpp:2822-3047`. -/
def stackList (w : Wide) (room : Room) (given : Int) (es : List Entry) (calls : List Nat) : Reply :=
  if given ≠ -1 then stackNums w room given.toNat es calls
  else if 0 ≤ common es ∧ common es ≤ 13 then stackNums w room (common es).toNat es calls
  else if (common es = 18 ∨ common es = 19) ∧ es.all (fun e => decide ((e.type : Int) = common es)) = true then
    stackStrs room (common es).toNat es calls
  else .error

/-- `HStack`, `src/Convert.cpp:2794-3060`. `given` is the type which is passed, -1 if there is none; a number which is no `int` is refused, as are all that are no type. -/
def hstackCall (w : Wide) (room : Room) (o : Obj) (given : Int) (calls : List Nat) : Reply :=
  if given ≠ -1 ∧ (given < 0 ∨ 13 < given) then .error
  else match build room.table room.copies false true o with
    | .refused => .error
    | .silent => .silent
    | .undefined => .undefined
    | .ok es _ => stackList w room given es calls

/-- What comes of `GetUpcastNum`. -/
inductive Num where
  | error
  | silent
  | undefined
  | num (k : Int)
  deriving DecidableEq, Repr

/-- `GetUpcastNum`, `src/Convert.cpp:2764-2787`: nothing is copied. -/
def upcastNum (table : Bool) (copies : Nat → Bool) (o : Obj) : Num :=
  match build table copies false false o with
  | .refused => .error
  | .silent => .silent
  | .undefined => .undefined
  | .ok es _ => .num (common es)

/-- The second argument of `HomogenizeArrays`: a number or something else. -/
inductive Dtype where
  | number (k : Int)
  | other

/-- `(int32_t)PyLong_AsLong(dtypeObject)`, `src/Convert.cpp:3247`, and whether an exception is set, which is not looked at. -/
def asType : Dtype → Int × Bool
  | .other => (-1, true)
  | .number k => if -9223372036854775808 ≤ k ∧ k ≤ 9223372036854775807 then (IT.i32.wrap k, false) else (-1, true)

/-- An array of the answer of `HomogenizeArrays`: the one which was given (or its copy), or one which was made. -/
inductive Piece where
  | same (t : Nat)
  | made (type : Nat) (items : List Int)
  deriving DecidableEq, Repr

/-- What comes of `HomogenizeArrays`: an exception, `NULL` without one, undefined behaviour, a list although an exception is set, or a list. -/
inductive Made where
  | error
  | silent
  | undefined
  | pending
  | list (l : List Piece)
  deriving DecidableEq, Repr

/-- One item, `src/Convert.cpp:3288-3289`: what is taken for invalid is `GetDefaultForType` of the type, which is false for booleans (`src/Convert.cpp:3281`). -/
def homItem (w : Wide) (ti : Nat) (c : Conv) (x : Int) : Option Int :=
  match c with
  | .safe T U => if ti = 0 then (if x ≠ 0 then castItem w T U x else some (badOf w U)) else convItem w c x
  | _ => convItem w c x

/-- One round of the loop, `src/Convert.cpp:3276-3301`. `none`: undefined; `some none`: an exception is set and the round goes without an array, as
`AllocateLikeNumpyArray` makes no strings of others (`src/RipTide.cpp:818-825`) and `PyList_Append` refuses a null pointer. Other types without a
function are called through a null pointer (or `GetDefaultForType`, `src/RipTide.cpp:2171-2173`, throws). -/
def homPiece (w : Wide) (r : Int) (t : Nat) (e : Entry) : Option (Option Piece) :=
  if r ≠ e.type then
    if e.there = false then none
    else if 13 < r ∧ (e.type = 18 ∨ e.type = 19) then some none
    else match safeKern e.type r.toNat with
      | none => none
      | some c => ((List.range e.len).mapM fun (i : Nat) => (loadItem e.type e.data ((i * e.item : Nat) : Int)).bind (homItem w e.type c)).map
          fun l => some (.made r.toNat l)
  else if e.there then some (some (.same t)) else some none

/-- With the table and a type, `src/Convert.cpp:3257-3306`: `GetDefaultForType` throws for objects. `pending`: an exception is set. -/
def homList (w : Wide) (pending : Bool) (r : Int) (es : List Entry) : Made :=
  if r = -1 then (if pending then .error else .silent)
  else if r = 17 then .undefined
  else match es.zipIdx.mapM fun x => homPiece w r x.2 x.1 with
    | none => .undefined
    | some l => if pending || l.any (·.isNone) then .pending else .list (l.filterMap id)

/-- `HomogenizeArrays`, `src/Convert.cpp:3220-3310`, with two arguments. -/
def homogenizeCall (w : Wide) (table : Bool) (copies : Nat → Bool) (o : Obj) (d : Dtype) : Made :=
  match build table copies true true o with
  | .refused => .error
  | .silent => .silent
  | .undefined => .undefined
  | .ok es _ =>
    if (asType d).1 ≠ -1 ∧ ((asType d).1 < 0 ∨ 13 < (asType d).1) then .error
    else homList w (asType d).2 (if (asType d).1 = -1 then common es else (asType d).1) es

end Riptide.Nums.Stack
