import Verif.Common.Num
import Verif.Work.Elem
import Verif.Str.Model
/-! # Model of the binary searches of `src/Bins.cpp`

Values and bins are numbers on one common scale (an integer array, or floats written as multiples of
a common power of two), with `none` for a NaN.  The casts between the type of the data and the type
of the bins are parameters. -/
namespace Riptide.Bins
open Riptide.Work

/-- C++ `a < b` on values which may be NaN. -/
def oLt : Option Int → Option Int → Bool
  | some a, some b => decide (a < b)
  | _, _ => false

/-- C++ `a <= b` on values which may be NaN. -/
def oLe : Option Int → Option Int → Bool
  | some a, some b => decide (a ≤ b)
  | _, _ => false

/-- The casts `(T)bin` and `(BINTYPE)value` of `src/Bins.cpp:840-841` and 855; `none`: undefined
behaviour (a float outside the range of an integer type, or a NaN cast to one). -/
structure Casts where
  toT : Option Int → Option (Option Int)
  toB : Option Int → Option (Option Int)

/-- Data and bins of one type. -/
def Casts.same : Casts := ⟨some, some⟩

/-- Data of integer type `t`, bins of integer type `b`. -/
def Casts.ints (t b : IT) : Casts :=
  ⟨fun x => x.map fun x => some (t.wrap x), fun x => x.map fun x => some (b.wrap x)⟩

/-- Data of integer type `t` and `double` bins, both counted in halves: the cast to the integer type
truncates towards zero, and is undefined outside its range. -/
def Casts.intDataHalves (t : IT) : Casts :=
  ⟨fun x => x.bind fun x => if t.InRange (x.tdiv 2) then some (some (2 * x.tdiv 2)) else none, some⟩

/-- `double` data and bins of integer type `b`, both counted in halves. -/
def Casts.intBinsHalves (b : IT) : Casts :=
  ⟨some, fun x => x.bind fun x => if b.InRange (x.tdiv 2) then some (some (2 * x.tdiv 2)) else none⟩

/-- The type of the output, chosen from the number of bins: `BinsToCutsBSearch`,
`src/Bins.cpp:1747-1760`. -/
def outType (n : Nat) : IT :=
  if n > 100 then (if n > 30000 then (if n > 2000000000 then .i64 else .i32) else .i16) else .i8

/-- `middle = (first + last) >> 1`, `src/Bins.cpp:860`: the sum is made in `int` for the types up to 32
bits and in `int64_t` otherwise; overflow is undefined. -/
def midOf (o : IT) (first last : Int) : Option Int :=
  if (if o.bits ≤ 32 then IT.i32 else IT.i64).InRange (first + last) then some ((first + last) / 2)
  else none

/-- `pBin1[i]`: undefined outside the array. -/
def rd {α : Type} (bins : List α) (i : Int) : Option α := if 0 ≤ i then bins[i.toNat]? else none

/-- The loop of `SearchSortedRight`, `src/Bins.cpp:858-875`, and of `SearchSortedLeft`, 938-955: `low m`
is the test which selects the lower half (`pBin1[middle] > val`, or `>=`), `up m` the one which selects the
upper half.  `none` also stands for a loop which does not end within `fuel` rounds. -/
def searchLoop (o : IT) (low up : Int → Option Bool) : Nat → Int → Int → Option Int
  | 0, _, _ => none
  | fuel + 1, first, last =>
    (midOf o first last).bind fun m =>
    (low m).bind fun isLow =>
      if isLow then
        if first > m - 1 then some first else searchLoop o low up fuel first (m - 1)
      else (up m).bind fun isUp =>
        if isUp then
          if m + 1 > last then some (m + 1) else searchLoop o low up fuel (m + 1) last
        else searchLoop o low up fuel first last

/-- One value of `SearchSortedRight`, `src/Bins.cpp:825-895`. -/
def searchRight (o : IT) (c : Casts) (bins : List (Option Int)) (v : Option Int) : Option Int :=
  let n : Int := bins.length
  (rd bins (n - 1)).bind fun bl => (c.toT bl).bind fun verylast =>
  (rd bins 0).bind fun b0 => (c.toT b0).bind fun veryfirst =>
    if oLe veryfirst v && oLt v verylast then
      (c.toB v).bind fun val =>
        searchLoop o (fun m => (rd bins m).map fun b => oLt val b)
          (fun m => (rd bins m).map fun b => oLe b val) (bins.length + 1) 0 (n - 1)
    else if oLt v veryfirst then some 0 else some n

/-- One value of `SearchSortedLeft`, `src/Bins.cpp:905-975`. -/
def searchLeft (o : IT) (c : Casts) (bins : List (Option Int)) (v : Option Int) : Option Int :=
  let n : Int := bins.length
  (rd bins (n - 1)).bind fun bl => (c.toT bl).bind fun verylast =>
  (rd bins 0).bind fun b0 => (c.toT b0).bind fun veryfirst =>
    if oLt veryfirst v && oLe v verylast then
      (c.toB v).bind fun val =>
        searchLoop o (fun m => (rd bins m).map fun b => oLe val b)
          (fun m => (rd bins m).map fun b => oLt b val) (bins.length + 1) 0 (n - 1)
    else if oLe v veryfirst then some 0 else some n

/-- The loop of `MakeBinsBSearchFloat`, `MakeBinsBSearch` and `MakeBinsBSearchString`,
`src/Bins.cpp:1396-1417`, 1493-1514, 1293-1320: it stops as soon as `first >= last`, and on equality. -/
def cutLoop (o : IT) (gt lt : Int → Option Bool) : Nat → Int → Int → Option Int
  | 0, _, _ => none
  | fuel + 1, first, last =>
    (midOf o first last).bind fun m =>
    (gt m).bind fun isGt =>
      if isGt then
        if first ≥ m - 1 then some first else cutLoop o gt lt fuel first (m - 1)
      else (lt m).bind fun isLt =>
        if isLt then
          if m + 1 ≥ last then some (m + 1) else cutLoop o gt lt fuel (m + 1) last
        else some m

/-- The bin made of the position found, `src/Bins.cpp:1422-1437`; `le m` is `val <= pBin1[m]`. -/
def cutEdge (le : Int → Option Bool) (first : Int) : Option Int :=
  if first > 0 then (le first).map fun b => if b then first else first + 1 else some 1

/-- One value of `MakeBinsBSearchFloat`, `src/Bins.cpp:1361-1445` (`valid` is `std::isfinite`), or of
`MakeBinsBSearch`, 1456-1540 (`valid` is `value != defaultNan`). -/
def cutOne (o : IT) (c : Casts) (valid : Int → Bool) (bins : List (Option Int)) (v : Option Int) :
    Option Int :=
  let n : Int := bins.length
  (rd bins (n - 1)).bind fun bl => (c.toT bl).bind fun verylast =>
  (rd bins 0).bind fun b0 => (c.toT b0).bind fun veryfirst =>
    if v.any valid && oLe veryfirst v && oLe v verylast then
      (c.toB v).bind fun val =>
        (cutLoop o (fun m => (rd bins m).map fun b => oLt val b)
          (fun m => (rd bins m).map fun b => oLt b val) (bins.length + 1) 0 (n - 1)).bind
        (cutEdge fun m => (rd bins m).map fun b => oLe val b)
    else some 0

/-- `searchMode`, `src/Bins.cpp:1546-1677`: 0 cuts, 1 searches from the left, 2 from the right; any other
value is rejected. -/
inductive Mode
  | cut
  | left
  | right
  deriving DecidableEq, Repr

/-- `BinsToCutsBSearch` for numbers, `src/Bins.cpp:1734-1955`, with the chunked split over threads.  The
`V` cast of a result never loses a value, see `outType_fits`. -/
def binsToCuts (mode : Mode) (c : Casts) (valid : Int → Bool) (bins vals : List (Option Int))
    (par : Option (List Nat)) : Option (List (Option Int)) :=
  let o := outType bins.length
  let one := match mode with
    | .cut => cutOne o c valid bins
    | .left => searchLeft o c bins
    | .right => searchRight o c bins
  (elemWork (fun i => (vals[i]?).bind one) vals.length par).bind (runWrites vals.length)

/-! ## Strings -/

/-- The `w` bytes at offset `off`: undefined outside the buffer. -/
def bytesAt (data : List Nat) (off w : Nat) : Option (List Nat) :=
  if off + w ≤ data.length then some ((data.drop off).take w) else none

/-- `&pBin1[m * itemSizeBin]`. -/
def binAt (bins : List Nat) (wb : Nat) (m : Int) : Option (List Nat) :=
  if 0 ≤ m then bytesAt bins (m.toNat * wb) wb else none

/-- One value of `MakeBinsBSearchString`, `src/Bins.cpp:1284-1347`.  The first and last bin are only
read when the first character of the value is not NUL. -/
def cutString (o : IT) (bins : List Nat) (wb n : Nat) (s : List Nat) : Option Int :=
  (s[0]?).bind fun c =>
    if c = 0 then some 0 else
    (binAt bins wb 0).bind fun veryfirst =>
      if Str.binGe s veryfirst then
        (binAt bins wb ((n : Int) - 1)).bind fun verylast =>
        if Str.binLe s verylast then
          (cutLoop o (fun m => (binAt bins wb m).map fun b => Str.binGt b s)
            (fun m => (binAt bins wb m).map fun b => Str.binLt b s) (n + 1) 0 ((n : Int) - 1)).bind
          (cutEdge fun m => (binAt bins wb m).map fun b => Str.binLe s b)
        else some 0
      else some 0

/-- Row `i` of a call which starts at row `start`, `src/Bins.cpp:1265-1266`, 1286: `pData = &pData[start]`
moves by `start` bytes, not by `start` strings. -/
def stringRow (o : IT) (bins : List Nat) (wb n : Nat) (data : List Nat) (wv start i : Nat) : Option Int :=
  (bytesAt data (start + (i - start) * wv) wv).bind (cutString o bins wb n)

/-- `BinsToCutsBSearch` for two `NPY_STRING` arrays, `src/Bins.cpp:1812-1901`: `searchMode` is not looked
at, and the callback is `MakeBinsBSearchString`. -/
def binsToCutsString (_mode : Mode) (bins : List Nat) (wb n : Nat) (data : List Nat) (wv rows : Nat)
    (par : Option (List Nat)) : Option (List (Option Int)) :=
  let row := stringRow (outType n) bins wb n data wv
  (match par with
    | none => elemBlock (row 0) 0 rows
    | some calls =>
      (calls.mapM fun b => elemBlock (row (chunk * b)) (chunk * b)
        (blockLen rows chunk (blockLastGeneric rows chunk) b)).map List.flatten).bind (runWrites rows)

/-- `BinsToCutsBSearch` for two `NPY_UNICODE` arrays, `src/Bins.cpp:1849-1880`: the body of the callback is
commented out, so no row is written. -/
def binsToCutsUnicode (rows : Nat) : Option (List (Option Int)) := runWrites rows []

end Riptide.Bins
