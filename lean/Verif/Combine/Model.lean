import Verif.Common.Num
import Verif.Work.Elem
/-! # Model of the index combiners of `src/Convert.cpp:1350-2525`

Group numbers are integers in the range of their C++ type. A row of a boolean filter is its byte; the loops test it for
being nonzero, `CombineFilter` multiplies by it. `none` is undefined behaviour. -/
namespace Riptide.Combine
open Riptide.Work

/-! ### CombineFilter -/

/-- One row of `CombineMask<T>`, `src/Convert.cpp:1356-1366`. -/
def maskRow (t : IT) (x f : Int) : Int := t.wrap (x * t.wrap f)

/-- `CombineFilter`, `src/Convert.cpp:1392-1530`: every row, under the given schedule. -/
def combineFilter (t : IT) (idx filt : List Int) (par : Option (List Nat)) : Option (List (Option Int)) :=
  if idx.length ≠ filt.length then none
  else (elemWork (fun i => idx[i]?.bind fun x => filt[i]?.map fun f => maskRow t x f) idx.length par).bind
    (runWrites idx.length)

/-! ### CombineAccum2Filter -/

/-- Type of the output, `src/Convert.cpp:1791-1808`. -/
def outType (hashSize : Int) : IT :=
  if hashSize < 120 then .i8 else if hashSize < 32000 then .i16 else if hashSize < 2000000000 then .i32 else .i64

/-- `(V)(pDataIn2[i] * multiplier + pDataIn1[i])` in 64-bit arithmetic, whose overflow is undefined. -/
def bin2 (v : IT) (mult x1 x2 : Int) : Option Int :=
  if IT.i64.InRange (x2 * mult) ∧ IT.i64.InRange (x2 * mult + x1) then some (v.wrap (x2 * mult + x1)) else none

/-- One row of `CombineAccum2Mask`, `src/Convert.cpp:1539-1630`; counts are never asked for (line 1895). With a
filter a bin outside `[0, maxbin)` becomes 0, without one it is stored as it is. -/
def accum2Row (v : IT) (mult maxbin x1 x2 : Int) (filt : Option Int) : Option Int :=
  match filt with
  | some f =>
    if f ≠ 0 then (bin2 v mult x1 x2).map fun b => if b ≥ 0 ∧ b < v.wrap maxbin then b else 0
    else some 0
  | none => bin2 v mult x1 x2

/-- Row `i` of an optional filter. -/
def filtAt (filt : Option (List Int)) (i : Nat) : Option (Option Int) :=
  match filt with
  | none => some none
  | some l => l[i]?.map some

/-- Errors and result of `CombineAccum2Filter`. -/
inductive Out2
  | sizes
  | negative
  | ub
  | ok (t : IT) (out : List (Option Int))
  deriving DecidableEq

/-- `CombineAccum2Filter`, `src/Convert.cpp:1728-2028`. The checks of the types of the arrays are left out. -/
def combineAccum2 (max1 max2 : Int) (in1 in2 : List Int) (filt : Option (List Int)) (par : Option (List Nat)) : Out2 :=
  let m1 := max1 + 1
  let m2 := max2 + 1
  if ¬ (IT.i64.InRange m1 ∧ IT.i64.InRange m2 ∧ IT.i64.InRange (m1 * m2)) then .ub
  else if in1.length ≠ in2.length then .sizes
  else if (filt.map List.length).getD in1.length ≠ in1.length then .sizes
  else if m1 * m2 < 0 then .negative
  else
    let t := outType (m1 * m2)
    match (elemWork (fun i => in1[i]?.bind fun x1 => in2[i]?.bind fun x2 => (filtAt filt i).bind fun f =>
        accum2Row t m1 (m1 * m2) x1 x2 f) in1.length par).bind (runWrites in1.length) with
    | none => .ub
    | some out => .ok t out

/-! ### CombineAccum1Filter -/

/-- State of `Combine1Filter`: `pHash`, the written part of `pNewFirst` and of `pOutput`. -/
structure S1 where
  hash : List Int
  firsts : List Int
  out : List Int
  deriving DecidableEq

/-- One row of `Combine1Filter<INDEX>`, `src/Convert.cpp:2068-2155`; `n` is the length of the arrays, `i` the row.
`uniquecount` is the number of first rows written so far. -/
def step1 (t : IT) (n hashLen : Nat) (s : S1) (i : Nat) (x : Int) (kept : Bool) : Option S1 :=
  if kept then
    if x > 0 ∧ x < (hashLen : Int) then
      s.hash[x.toNat]?.bind fun h =>
        if h = 0 then
          if s.firsts.length < n then
            some ⟨s.hash.set x.toNat (s.firsts.length + 1), s.firsts ++ [IT.i32.wrap i],
              s.out ++ [t.wrap (s.firsts.length + 1)]⟩
          else none
        else some { s with out := s.out ++ [t.wrap h] }
    else some { s with out := s.out ++ [0] }
  else some { s with out := s.out ++ [0] }

/-- The loop over the rows. -/
def loop1 (t : IT) (n hashLen : Nat) : List (Int × Bool) → Nat → S1 → Option S1
  | [], _, s => some s
  | (x, kept) :: rows, i, s => (step1 t n hashLen s i x kept).bind (loop1 t n hashLen rows (i + 1))

/-- `CombineAccum1Filter`, `src/Convert.cpp:2181-2290`, with `hashLen = Max uniques + 1`; a row without filter is kept.
Result: new group numbers and first rows. -/
def combineAccum1 (t : IT) (hashLen : Nat) (rows : List (Int × Bool)) : Option (List Int × List Int) :=
  (loop1 t rows.length hashLen rows 0 ⟨List.replicate hashLen 0, [], []⟩).map fun s => (s.out, s.firsts)

/-! ### MakeiFirst -/

/-- The marker for bins without a row, `src/Convert.cpp:2307`. -/
def invalid : Int := -(2 : Int) ^ 63

/-- One row of `iFirstFilter` or `iLastFilter`, `src/Convert.cpp:2317-2357`, 2377-2407. -/
def stepF (last : Bool) (hashLen : Nat) (buf : List Int) (i : Nat) (x : Int) (kept : Bool) : Option (List Int) :=
  if kept then
    if x > 0 ∧ x < (hashLen : Int) then
      buf[x.toNat]?.map fun v =>
        if last then buf.set x.toNat i
        else if v = invalid then buf.set x.toNat i else buf
    else some buf
  else some buf

/-- The loop over the rows. -/
def loopF (last : Bool) (hashLen : Nat) : List (Int × Bool) → Nat → List Int → Option (List Int)
  | [], _, buf => some buf
  | (x, kept) :: rows, i, buf => (stepF last hashLen buf i x kept).bind (loopF last hashLen rows (i + 1))

/-- `MakeiFirst`, `src/Convert.cpp:2421-2525`, with `hashLen = Max uniques + 1`. -/
def makeiFirst (last : Bool) (hashLen : Nat) (rows : List (Int × Bool)) : Option (List Int) :=
  loopF last hashLen rows 0 (List.replicate hashLen invalid)

end Riptide.Combine
