import Verif.Quick.Model
/-! # Model of `SortInPlace`, `Sort` and `SortInPlaceIndirect`, `src/Sort.cpp` -/
namespace Riptide.Quick
open Riptide.Sort (intLt floatLt singleSort wr)

/-- Division by `2 ^ s`, rounded to nearest, ties to even. -/
def rne (n s : Nat) : Nat :=
  if 2 ^ s < 2 * (n % 2 ^ s) ∨ (2 * (n % 2 ^ s) = 2 ^ s ∧ n / 2 ^ s % 2 = 1) then n / 2 ^ s + 1 else n / 2 ^ s

/-- The conversion of a wider float to `float` that passing `*pm` to `COMPARE_LT<float, Ascending>` makes,
`src/Sort.cpp:1440`, `1473`: round to nearest even, infinity when too large (strictly the standard leaves that
case undefined; IEEE arithmetic is assumed), a NaN becomes a NaN. -/
def narrow (f : FT) (b : Nat) : Nat :=
  (if f.neg b then 2 ^ 31 else 0) +
    if f.isNan b then FT.f32.qnan
    else if f.mag b = f.infMag then FT.f32.infMag
    else
      let s := f.scaledMag (f.mag b)
      let u := f.unit - FT.f32.unit
      let k := s.log2
      if k < u + 23 then rne s u
      else min FT.f32.infMag ((k - u - 23 + 1) * 2 ^ 23 + (rne s (k - 23) - 2 ^ 23))

/-- The comparison of `mergesort0_float<T, true>`, `src/Sort.cpp:1408-1480`: as `float`, whatever `T` is. -/
def mergeLt (f : FT) (x y : Nat) : Bool :=
  if f.mb ≤ FT.f32.mb then floatLt f true x y else floatLt .f32 true (narrow f x) (narrow f y)

/-- `char` as a signed number. -/
def charVal (b : Nat) : Int := if b < 128 then b else (b : Int) - 256

/-- `COMPARE_LT<char, true>`, `src/Sort.cpp:79-97`. -/
def charLt (x y : Nat) : Bool := intLt true (charVal x) (charVal y)

/-- `SortInPlace<T, true>` (`src/Sort.cpp:2686-2711`) and `SortInPlaceFloat` (`2716-2741`): `mode` 1 is quicksort, 2 mergesort,
3 heapsort; any other mode does nothing.  `w` is the workspace of the merge, `mergesort_` (`1265-1281`) and
`mergesort_float` (`1484-1500`); it is assumed to be available. -/
def sortRun {α : Type} (lt ltM : α → α → Bool) (mode : Int) (w a : List α) : Option (List α) :=
  if mode = 1 then quicksort lt a
  else if mode = 2 then singleSort ltM false a w
  else if mode = 3 then heapsort lt a
  else some a

/-- The data of an array by type: integers and booleans, floats, byte strings (`n` items, all their bytes), and
types `SortArray` does not know.  `long double` is left out. -/
inductive Data
  | ints (v : List Int)
  | floats (f : FT) (v : List Nat)
  | bytes (n : Nat) (v : List Nat)
  | other
  deriving DecidableEq

/-- `SortArray`, `src/Sort.cpp:2864-2911`.  Byte strings are sorted as `n` characters. -/
def sortArray (mode : Int) (wi : List Int) (wn : List Nat) : Data → Option Data
  | .ints v => (sortRun (intLt true) (intLt true) mode wi v).map .ints
  | .floats f v => (sortRun (floatLt f true) (mergeLt f) mode wn v).map (.floats f)
  | .bytes n v => (sortRun charLt charLt mode wn (v.take n)).map fun s => .bytes n (s ++ v.drop n)
  | .other => some .other

/-- `SortInPlace` on a view of integers in memory: `n` elements from the first one on, `src/Sort.cpp:2917-2940`.
The stride is not used. -/
def sortView (mode : Int) (wi mem : List Int) (off n : Nat) : Option (List Int) :=
  if off + n ≤ mem.length then
    (sortRun (intLt true) (intLt true) mode wi ((mem.drop off).take n)).map fun s =>
      mem.take off ++ s ++ mem.drop (off + n)
  else none

/-- `*(p + i)` for a possibly negative `i`. -/
def at? {α : Type} (a : List α) (i : Int) : Option α := if i < 0 then none else a[i.toNat]?

/-- `for (i = 0; i < sortSize; i++) inverseSort[pSort[i]] = i;`, `src/Sort.cpp:2973-2976`; no index is checked. -/
def invert (n : Nat) : List Int → Int → List (Option Int) → Option (List (Option Int))
  | [], _, inv => some inv
  | p :: ps, i, inv =>
    if p < 0 then none else (wr inv p.toNat (some i)).bind fun inv' => invert n ps (i + 1) inv'

/-- `SortInPlaceIndirect`, `src/Sort.cpp:2951-3026`, for 32- or 64-bit integers.  A cell of the result is `none` if it
was read from an unwritten cell of the work space.  Simplified: all positions fit the narrower type. -/
def sortIndirect (srt keys : List Int) : Option (List (Option Int)) :=
  (invert srt.length srt 0 (List.replicate srt.length none)).bind fun inv => keys.mapM (at? inv)

end Riptide.Quick
