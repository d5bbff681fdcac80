import Verif.Bins.Model
import Verif.Quick.InPlace
import Verif.Unary.Strided
import Verif.Convert.Call
/-! # Model of the call `BinsToCutsBSearch` with the types of its arrays, `src/Bins.cpp:816-975` and `1350-1956`

Integers stand for themselves; a floating point number is given by its bits. -/
namespace Riptide.Bins.Call
open Riptide.Work Riptide.Binary Riptide.Unary
open Riptide.Quick (rne)
open Riptide.Convert.Call (Arr)

/-- The types the templates of `src/Bins.cpp:1546-1677` are made for. -/
inductive Num where
  | int (t : IT)
  | flt (f : FT)
  deriving DecidableEq, Repr

/-- `long double`: the numbers of the x87 format; its explicit leading bit is left out, so that bits which are no number do not exist. -/
def ext : FT := ⟨15, 63⟩

/-- The template argument for the type of the data, `GetMakeBinsBSearchPart2`, `src/Bins.cpp:1546-1677`: the same list for all three modes. -/
def dataType : Nat → Option Num
  | 0 => some (.int .i8) | 1 => some (.int .i8) | 2 => some (.int .u8) | 3 => some (.int .i16) | 4 => some (.int .u16)
  | 5 => some (.int .i32) | 6 => some (.int .u32) | 7 => some (.int .i64) | 8 => some (.int .u64) | 9 => some (.int .i64)
  | 10 => some (.int .u64) | 11 => some (.flt .f32) | 12 => some (.flt .f64) | 13 => some (.flt ext) | _ => none

/-- The template argument for the type of the bins, `GetMakeBinsBSearch`, `src/Bins.cpp:1687-1722`. -/
def binType : Nat → Option Num
  | 1 => some (.int .i8) | 3 => some (.int .i16) | 5 => some (.int .i32) | 7 => some (.int .i64) | 9 => some (.int .i64)
  | 8 => some (.int .u64) | 10 => some (.int .u64) | 11 => some (.flt .f32) | 12 => some (.flt .f64) | _ => none

/-- The three values of `searchMode`, `src/Bins.cpp:1546-1677`. -/
def modeOf (m : Int) : Option Mode :=
  if m = 0 then some .cut else if m = 1 then some .left else if m = 2 then some .right else none

/-- The invalid value of integers which `MakeBinsBSearch` leaves out, `src/Bins.cpp:1469-1470`, `GetDefaultForType`, `src/RipTide.cpp:2098-2176`: for
`bool` it is `False`. -/
def sentinel (ty : Nat) (t : IT) : Int := if ty = 0 then 0 else t.inv

/-- The number `n / 2 ^ u`, not negative, in another format, for the casts of `src/Bins.cpp:840-841`, `855`, `921-922` and `936`: rounded to nearest, ties
to even; infinity when too large (strictly the standard leaves that case undefined; IEEE arithmetic is assumed). -/
def convMag (g : FT) (u n : Nat) : Nat :=
  let k := n.log2 + g.unit - u
  if n = 0 then 0
  else if k ≤ g.mb then rne (n * 2 ^ g.unit) u
  else min g.infMag ((k - g.mb) * 2 ^ g.mb + rne (n * 2 ^ g.unit) (u + (k - g.mb)))

/-- The cast of a floating point number to another format, `src/Bins.cpp:1372-1373` and `1393`. -/
def convF (f g : FT) (b : Nat) : Nat :=
  (if f.neg b then 2 ^ (g.eb + g.mb) else 0) +
    if f.isNan b then g.qnan else if f.mag b = f.infMag then g.infMag else convMag g f.unit (f.scaledMag (f.mag b))

/-- The casts `(T)bin` and `(BINTYPE)value` of `src/Bins.cpp:840-841`, `855`, `921-922`, `936`, `1372-1373`, `1393`, `1472-1473` and `1489`.
`none`: undefined (a number which does not fit the integer type, or no number). -/
def castNum : Num → Num → Int → Option Int
  | .int _, .int d, x => some (d.wrap x)
  | .int _, .flt f, x => some (f.ofInt x)
  | .flt f, .int t, x => f.toInt t x.toNat
  | .flt f, .flt g, x => some (if f = g then x else (convF f g x.toNat : Int))

/-- C++ `x < y` on two numbers of one type, for the comparisons of `src/Bins.cpp:846-895`. -/
def ltN : Num → Int → Int → Bool
  | .int _, x, y => decide (x < y)
  | .flt f, x, y => f.lt x.toNat y.toNat

/-- C++ `x <= y`, for the comparisons of `src/Bins.cpp:846-895`. -/
def leN : Num → Int → Int → Bool
  | .int _, x, y => decide (x ≤ y)
  | .flt f, x, y => f.lt x.toNat y.toNat || f.eq x.toNat y.toNat

/-- The test at the front of the condition of the cuts: `value != defaultNan`, `src/Bins.cpp:1482`, or `std::isfinite(value)`, `1387`. -/
def validN (ty : Nat) : Num → Int → Bool
  | .int t, x => decide (x ≠ sentinel ty t)
  | .flt f, x => f.isFinite x.toNat

/-- The bins as the functions see them: their number and what is read at an index. -/
structure Bins where
  n : Nat
  at_ : Int → Option Int

/-- `veryfirst` and `verylast`, made once in each call of the function, `src/Bins.cpp:839-841`, `920-922`, `1371-1373` and `1471-1473`. -/
def ends (T B : Num) (b : Bins) : Option (Int × Int) :=
  match b.at_ ((b.n : Int) - 1) with
  | none => none
  | some l => match castNum B T l with
    | none => none
    | some l' => match b.at_ 0 with
      | none => none
      | some f => (castNum B T f).map fun f' => (f', l')

/-- The search once the value is known to be between the ends, `src/Bins.cpp:848-880`, `929-961`, `1388-1437` and `1486-1532`. -/
def inside (mode : Mode) (o : IT) (B : Num) (b : Bins) (val : Int) : Option Int :=
  match mode with
  | .right => searchLoop o (fun m => (b.at_ m).map fun c => ltN B val c) (fun m => (b.at_ m).map fun c => leN B c val) (b.n + 1) 0 (b.n - 1)
  | .left => searchLoop o (fun m => (b.at_ m).map fun c => leN B val c) (fun m => (b.at_ m).map fun c => ltN B c val) (b.n + 1) 0 (b.n - 1)
  | .cut => (cutLoop o (fun m => (b.at_ m).map fun c => ltN B val c) (fun m => (b.at_ m).map fun c => ltN B c val) (b.n + 1) 0 (b.n - 1)).bind
      (cutEdge fun m => (b.at_ m).map fun c => leN B val c)

/-- The test whether a value is between the ends, `src/Bins.cpp:848`, `929`, `1386` and `1484`. -/
def between (mode : Mode) (T : Num) (ty : Nat) (e : Int × Int) (v : Int) : Bool :=
  match mode with
  | .right => leN T e.1 v && ltN T v e.2
  | .left => ltN T e.1 v && leN T v e.2
  | .cut => validN ty T v && leN T e.1 v && leN T v e.2

/-- The result for a value which is not, `src/Bins.cpp:882-893`, `963-974`, `1439-1443` and `1534-1538`. -/
def outside (mode : Mode) (T : Num) (e : Int × Int) (n : Nat) (v : Int) : Int :=
  match mode with
  | .right => if ltN T v e.1 then 0 else n
  | .left => if leN T v e.1 then 0 else n
  | .cut => 0

/-- One value, `src/Bins.cpp:844-895`, `925-976`, `1381-1445` and `1480-1540`. -/
def oneValue (mode : Mode) (o : IT) (T B : Num) (ty : Nat) (b : Bins) (e : Int × Int) (v : Int) : Option Int :=
  if between mode T ty e v then
    match castNum T B v with
    | none => none
    | some val => inside mode o B b val
  else some (outside mode T e b.n v)

/-- The reply of the call.  `refused`: the exception is set and `None` is returned, `src/Bins.cpp:1952-1955`, which Python turns into a `SystemError`; `text`:
two arrays of strings, see `binsToCutsString` and `binsToCutsUnicode`; `undef`: undefined behaviour; `done`: number of the type, shape and items in the
order of memory, `none` where nothing was written. -/
inductive Reply where
  | refused
  | text
  | undef
  | done (ty : Nat) (lay : Lay) (items : List (Option Int))
  deriving DecidableEq, Repr

/-- The number of the type of the result, `src/Bins.cpp:1793-1808`. -/
def outNum (n : Nat) : Nat := if n > 100 then (if n > 30000 then (if n > 2000000000 then 7 else 5) else 3) else 1

/-- An item of the memory of an array, as a pointer to its type reads it, `src/Bins.cpp:830-837`: the distances of the items are not looked at. -/
def cell (a : Arr) (i : Int) : Option Int := a.mem (i * a.lay.item)

/-- The call after the function is chosen, `src/Bins.cpp:1790-1809` and `1903-1949`: the output is written row by row, in any order of the threads. -/
def run (mode : Mode) (T B : Num) (a b : Arr) (par : Option (List Nat)) : Reply :=
  let n := b.lay.len
  let bins : Bins := ⟨n, cell b⟩
  match ends T B bins with
  | none => .undef
  | some e =>
    match (elemWork (fun i => (cell a i).bind (oneValue mode (outType n) T B a.ty bins e)) a.lay.len par).bind (runWrites a.lay.len) with
    | none => .undef
    | some items => .done (outNum n) (newOut a.lay ((outType n).bits / 8)) items

/-- `BinsToCutsBSearch`, `src/Bins.cpp:1734-1956`: two arrays of strings or of text of one type are searched by another function, even when the bins' type has
none. -/
def call (m : Int) (a b : Arr) (par : Option (List Nat)) : Reply :=
  if a.ty = b.ty ∧ (a.ty = 18 ∨ a.ty = 19) then .text
  else match modeOf m, dataType a.ty, binType b.ty with
    | some mode, some T, some B => run mode T B a b par
    | _, _, _ => .refused

end Riptide.Bins.Call
