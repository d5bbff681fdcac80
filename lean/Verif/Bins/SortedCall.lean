import Verif.Bins.Quantile
import Verif.Bins.Call
import Verif.Arrays.Info
/-!
# The calls `NanInfCountFromSort` and `BinsToCutsSorted`, `src/Bins.cpp:340-815`

Left out: values of type `long double`.
-/
namespace Riptide.Bins.Sorted
open Riptide.Nums Riptide.Nums.Info
open Riptide.Bins.Call (Num dataType convF)

/-- `pData[r]`, `src/Bins.cpp:361` and 573: an integer, or the bits of a floating point number. -/
def value (T : Num) (m : Mem) (r : Int) : Option Int :=
  match T with
  | .int t => loadInt t m (r * (t.bits / 8 : Nat))
  | .flt f => (load m (r * ((1 + f.eb + f.mb) / 8 : Nat)) ((1 + f.eb + f.mb) / 8)).map fun (b : Nat) => (b : Int)

/-- The type of the index, `src/Bins.cpp:486-494` and 739-780. -/
def indexType : Nat → Option IT
  | 5 => some .i32
  | 7 => some .i64
  | 9 => some .i64
  | _ => none

/-- `pIndex[i]`, `src/Bins.cpp:361` and 572. -/
def indexAt (U : IT) (m : Mem) (i : Int) : Option Int := loadInt U m (i * (U.bits / 8 : Nat))

/-- The loops from the back, `src/Bins.cpp:361-371` and 404-408. -/
def backLoop (get : Nat → Option Int) (p : Int → Bool) : Nat → Option Nat
  | 0 => some 0
  | i + 1 =>
    match get i with
    | none => none
    | some x => if p x then (backLoop get p i).map (· + 1) else some 0

/-- The loops from the front over `k` items from the `j`-th on, `src/Bins.cpp:373-379` and 390-396: the counter is an `int`. -/
def frontLoop (get : Nat → Option Int) (p : Int → Bool) : Nat → Nat → Option Nat
  | 0, _ => some 0
  | k + 1, j =>
    match get j with
    | none => none
    | some x => if p x then (if j + 1 < 2 ^ 31 then (frontLoop get p k (j + 1)).map (· + 1) else none) else some 0

/-- `NanInfCount` for floats, `src/Bins.cpp:355-380`. -/
def countF (f : FT) (get : Nat → Option Int) (n : Nat) : Option (Nat × Nat × Nat) :=
  match backLoop get (fun x => f.isNan x.toNat) n with
  | none => none
  | some nan =>
    match backLoop get (fun x => f.eq x.toNat f.infMag) (n - nan) with
    | none => none
    | some inf => (frontLoop get (fun x => f.eq x.toNat (2 ^ (f.eb + f.mb) + f.infMag)) (n - nan - inf) 0).map fun neg => (nan, inf, neg)

/-- `NanInfCount`, `src/Bins.cpp:343-413`, for values of the type with the number `ty`: booleans have no invalid value. -/
def count (ty : Nat) (T : Num) (get : Nat → Option Int) (n : Nat) : Option (Nat × Nat × Nat) :=
  match T with
  | .flt f => countF f get n
  | .int t =>
    if ty = 0 then some (0, 0, 0)
    else if ty % 2 = 1 then (frontLoop get (fun x => decide (x = t.inv)) n 0).map fun c => (0, 0, c)
    else (backLoop get (fun x => decide (x = t.inv)) n).map fun c => (0, c, 0)

/-- What comes of a call: `None` with an exception set, which Python turns into a `SystemError`; `None`; `longDouble`: left out. -/
inductive Reply (α : Type) where
  | failed
  | pyNone
  | undefined
  | longDouble
  | done (r : α)
  deriving DecidableEq

/-- What can be undefined. -/
def Reply.of {α : Type} : Option α → Reply α
  | none => .undefined
  | some r => .done r

/-- An argument of `CMultiListPrepare`, `src/Sort.h:41-91`: a list, or anything else. -/
inductive PyArg where
  | list (l : List Arg)
  | arg (x : Arg)

/-- An argument as an item of the tuple, `src/MultiKey.cpp:297-301`: a list is refused. -/
def PyArg.item : PyArg → Arg
  | .list _ => .other
  | .arg x => x

/-- The list of arrays, `src/Sort.h:56-69`: a list in the first place is taken instead of all arguments. -/
def prepared : List PyArg → List Arg
  | .list l :: _ => l
  | as => as.map PyArg.item

/-- The call with its two entries, `src/Bins.cpp:474-500`. -/
def countTwo (d x : Entry) : Reply (Nat × Nat × Nat) :=
  match indexType x.type with
  | none => .pyNone
  | some U =>
    if d.type = 13 then .longDouble
    else match dataType d.type with
      | none => .pyNone
      | some T => .of (count d.type T (fun i => (indexAt U x.data i).bind (value T d.data)) d.len)

/-- `NanInfCountFromSort`, `src/Bins.cpp:470-515`: the length of the first entry is read even if there are no entries, `src/Sort.h:76`. -/
def nanInf (table : Bool) (room : Nat → Bool) (args : List PyArg) : Reply (Nat × Nat × Nat) :=
  match build table room true true (.items (prepared args)) with
  | .undefined => .undefined
  | .refused => .failed
  | .silent => .failed
  | .ok [] _ => .undefined
  | .ok [d, x] _ => countTwo d x
  | .ok _ _ => .failed

/-! ## `BinsToCutsSorted` -/

/-- The cast to `double` of `src/Bins.cpp:573`, 590, 602 and 609. -/
def asDouble : Num → Int → Nat
  | .int _, x => FT.f64.ofInt x
  | .flt f, x => if f = FT.f64 then x.toNat else convF f FT.f64 x.toNat

/-- The loop to the next bin, `src/Bins.cpp:609-615`; `k` is the number of edges. -/
def nextBin (k : Nat) (edge : Nat → Option Nat) (v : Nat) : Nat → Nat → Nat → Option (Nat × Nat)
  | 0, b, c => some (b, c)
  | fuel + 1, b, c =>
    if b < k ∧ FT.f64.lt c v then
      match edge (b + 1) with
      | none => none
      | some c' => nextBin k edge v fuel (b + 1) c'
    else some (b, c)

/-- The rows which get a bin, `src/Bins.cpp:599-623`, and those behind, 626-631. -/
def cutRows (k : Nat) (edge : Nat → Option Nat) (o : IT) (D : Nat → Option Nat) : List Nat → Nat → Nat → Option (List (Nat × Int))
  | [], _, _ => some []
  | r :: l, b, c =>
    match D r with
    | none => none
    | some v =>
      if dLe v c then (cutRows k edge o D l b c).map ((r, o.wrap (b + 1)) :: ·)
      else
        match nextBin k edge v (k + 1) b c with
        | none => none
        | some (b', c') => if b' ≥ k then some ((r :: l).map (·, 1)) else (cutRows k edge o D l b' c').map ((r, o.wrap (b' + 1)) :: ·)

/-- The bin to begin with, `src/Bins.cpp:584-596`. -/
def firstBin (k : Nat) (edge : Nat → Option Nat) (D : Nat → Option Nat) (e0 : Nat) : List Nat → Option (Nat × Nat)
  | [] => some (0, e0)
  | r :: _ =>
    match D r with
    | none => none
    | some v => if FT.f64.eq v e0 && decide (1 < k) then (edge 1).map (1, ·) else some (0, e0)

/-- The row at a place of the index. Each row which is read is written (`src/Bins.cpp:551`, 559, 575, 604, 620 and 629), so that one outside of the values
is undefined. -/
def rowAt (idx : Int → Option Int) (n : Nat) (i : Int) : Option Nat :=
  match idx i with
  | none => none
  | some r => if 0 ≤ r ∧ r < n then some r.toNat else none

/-- The places from `a` up to `b`. -/
def places (a b : Int) : List Int := (List.range (b - a).toNat).map fun (k : Nat) => a + k

/-- `MakeBinsSorted`, `src/Bins.cpp:532-632`: the writes, all rows of the index being read at the beginning. The counts can be any; their sums must fit. -/
def cutAll (idx : Int → Option Int) (D : Nat → Option Nat) (k : Nat) (edge : Nat → Option Nat) (n : Nat) (nan inf neg : Int) : Option (List (Nat × Int)) :=
  if ¬ (IT.i64.InRange (nan + inf) ∧ IT.i64.InRange (n - (nan + inf))) then none
  else
    match (places 0 neg).mapM (rowAt idx n), (places 0 (nan + inf)).mapM (fun i => rowAt idx n (n - i - 1)),
        (places neg (n - (nan + inf))).mapM (rowAt idx n), edge 0 with
    | some front, some last, some rows, some e0 =>
      match clipLow D e0 rows with
      | none => none
      | some (rest, low) =>
        match firstBin k edge D e0 rest with
        | none => none
        | some (b, c) => (cutRows k edge (outType k) D rest b c).map fun ws => front.map (·, 0) ++ last.map (·, 0) ++ low ++ ws
    | _, _, _, _ => none

/-- `BinsToCutsSorted`, `src/Bins.cpp:693-815`: the labels in the order of memory of the result, which has the shape of the values and the type of
`outType`. `room` tells whether there is memory for it. -/
def cuts (room : Bool) (a : Arr) (m : Mem) (b : Arr) (bm : Mem) (x : Arr) (im : Mem) (nan inf neg : Int) : Reply (List (Option Int)) :=
  if b.type ≠ 12 then .failed
  else match indexType x.type with
    | none => .pyNone
    | some U =>
      if a.type = 13 then .longDouble
      else match dataType a.type with
        | none => .pyNone
        | some T =>
          if room = false then .failed
          else .of ((cutAll (indexAt U im) (fun (r : Nat) => (value T m r).map (asDouble T)) b.lay.len (fun (k : Nat) => load bm (k * 8) 8) a.lay.len
            nan inf neg).bind (runWrites a.lay.len))

end Riptide.Bins.Sorted
