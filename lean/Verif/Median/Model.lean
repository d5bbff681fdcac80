import Verif.Rolling.Model
import Verif.Quick.Model
import Verif.Heap.QModel
import Verif.Work.Model
/-! # Model of the functions of a whole group: median, mode, quantile, trimmed mean, `src/GroupBy.cpp`

Each of them copies the values of a group to a work array and computes one value from it.  `none` is
undefined behaviour. -/
namespace Riptide.Median
open Rolling (Packed rd srcAt upTo overBins store)
open Quick (quicksort swap)

variable {α U : Type}

/-- One bin, `src/GroupBy.cpp:2050-2065`, `2129-2142`, `2231-2268`, `2340-2353`: an empty group is invalid, otherwise
`g` of the copied values.  The work array has room for `cap` values (`totalInputRows`); a negative count, which no
packed array has, is taken as undefined behaviour.  The quantiles stop copying at an invalid value; here all are read. -/
def groupBin (cap : Nat) (src : List α) (P : Packed) (inv : U) (g : List α → Option U) (i : Int) :
    Option (List (Int × U)) :=
  (rd P.count i).bind fun c =>
    if c = 0 then some [(i, inv)]
    else if c < 0 ∨ (cap : Int) < c then none
    else (rd P.first i).bind fun f =>
      ((upTo f (f + c)).mapM (srcAt src P)).bind fun l => (g l).map fun v => [(i, v)]

/-- The kernel on the bins `[lo, hi)` with an output of `uniq` entries, called by `GroupByAllPack32`,
`src/GroupBy.cpp:5071-5150`. -/
def accumGroups (cap : Nat) (src : List α) (P : Packed) (inv : U) (g : List α → Option U) (uniq lo hi : Nat) :
    Option (List (Option U)) := (overBins (groupBin cap src P inv g) lo hi).bind (store uniq)

/-- `GroupBySingleOpMultiBands`, `src/GroupBy.cpp:4242-4392`: all `uniq` bins in `cores` bands, `calls` being the bands in
the order in which they were done.  The range `[binLow, binHigh)` of the caller only bounds the number of cores. -/
def accumBanded (cap : Nat) (src : List α) (P : Packed) (inv : U) (g : List α → Option U) (uniq cores : Nat)
    (calls : List Nat) : Option (List (Option U)) :=
  ((calls.mapM fun k => (Work.segLoop (uniq / cores) cores 0 (uniq % cores))[k]?.bind fun (s : Nat × Nat) =>
    overBins (groupBin cap src P inv g) s.1 s.2).map List.flatten).bind (store uniq)

/-! ## Median and mode -/

/-- `while (pEnd >= pSort) { if (*pEnd == *pEnd) break; pEnd--; }`, `src/GroupBy.cpp:2149-2157`, `2360-2368`. -/
def stripTail (eq : α → α → Bool) (l : List α) : List α := (l.reverse.dropWhile fun x => !eq x x).reverse

/-- `AccumMedian` on the values of one group, `src/GroupBy.cpp:2355-2392`. -/
def medianOf (lt eq : α → α → Bool) (split : α → α → Option α) (inv : α) (l : List α) : Option α :=
  (quicksort lt l).bind fun s =>
    let t := stripTail eq s
    if t.length = 0 then some inv
    else if t.length % 2 = 1 then t[t.length / 2]?
    else t[t.length / 2]?.bind fun x => t[t.length / 2 - 1]?.bind fun y => split x y

/-- `MEDIAN_SPLIT` for the integer types, `src/GroupBy.cpp:30-60`: the sum is taken in `int` or, if that is wider, in the
type; signed overflow is undefined behaviour.  The division truncates. -/
def intSplit (t : IT) (x y : Int) : Option Int := (Heap.splitSum t x y).map fun s => s.tdiv 2

/-- `MEDIAN_SPLIT` for `bool`, `src/GroupBy.cpp:26-29`. -/
def boolSplit (x y : Int) : Option Int := some (if x = 0 ∧ y = 0 then 0 else 1)

/-- The loop of `AccumMode`, `src/GroupBy.cpp:2166-2182`. -/
def modeLoop (eq : α → α → Bool) (cv : α) (cc : Nat) (bv : α) (bc : Nat) : List α → α
  | [] => bv
  | x :: xs =>
    let cv' := if eq x cv then cv else x
    let cc' := if eq x cv then cc + 1 else 1
    if bc < cc' then modeLoop eq cv' cc' cv' cc' xs else modeLoop eq cv' cc' bv bc xs

/-- `AccumMode` on the values of one group, `src/GroupBy.cpp:2144-2185`. -/
def modeOf (lt eq : α → α → Bool) (inv : α) (l : List α) : Option α :=
  (quicksort lt l).map fun s =>
    match stripTail eq s with
    | [] => inv
    | x :: xs => modeLoop eq x 1 x 1 xs

/-! ## Quantiles -/

/-- `get_nth_element`, `src/GroupBy.cpp:160-167`; `nth` is `std::nth_element`.  The array after it is `nth l n`. -/
def getNth (nth : List α → Nat → List α) (l : List α) (n : Nat) : Option α :=
  if n < l.length then (nth l n)[n]? else none

/-- `*std::max_element(first, last)`. -/
def maxElem (lt : α → α → Bool) : List α → Option α
  | [] => none
  | x :: xs => some (xs.foldl (fun m y => if lt m y then y else m) x)

/-- `a / b` to the nearest integer, ties to even. -/
def divRound (a b : Nat) : Nat :=
  if b < 2 * (a % b) ∨ (2 * (a % b) = b ∧ a / b % 2 = 1) then a / b + 1 else a / b

/-- The `double` nearest to `a / b`, as `m / 2 ^ s` with `m` of 53 bits, for values below `2 ^ 53`.  Subnormals are left
out (the values here are 0 or at least 1e-9). -/
def nearest (a b : Nat) : Nat × Nat :=
  let k := b.log2 + 1
  let s := 52 + k - (a * 2 ^ k / b).log2
  (divRound (a * 2 ^ s) b, s)

/-- `idx_round_down` and `idx_round_up` for the quantile `q / 1e9` of `n` values, `src/GroupBy.cpp:2220`, `2292-2295`. -/
def quantIdx (q n : Nat) : Nat × Nat :=
  let c := nearest q 1000000000
  let p := nearest ((n - 1) * c.1) (2 ^ c.2)
  (p.1 / 2 ^ p.2, (p.1 + 2 ^ p.2 - 1) / 2 ^ p.2)

/-- `AccumQuantile1e9Mult` on the values of one group, `src/GroupBy.cpp:2207-2312`, for a parameter which is not
negative. -/
def quantileOf (nth : List α → Nat → List α) (lt : α → α → Bool) (valid : α → Bool) (cast : α → U)
    (split : α → α → Option U) (inv : U) (param : Nat) (l : List α) : Option U :=
  let isNan := decide (1000000000 < param)
  let q := if isNan then param - 1000000001 else param
  if !isNan && l.any (fun x => !valid x) then some inv
  else
    let v := l.filter valid
    if v.length = 0 then some inv
    else
      let d := (quantIdx q v.length).1
      let u := (quantIdx q v.length).2
      if u = d then (getNth nth v u).map cast
      else (getNth nth v u).bind fun x => (maxElem lt ((nth v u).take u)).bind fun y => split x y

/-- `QUANTILE_SPLIT` for an integer column, `src/GroupBy.cpp:75-79`; the conversion of the sum to `double` is taken as
exact. -/
def quantSplit (t : IT) (x y : Int) : Option Rat := (Heap.splitSum t x y).map fun s => (s : Rat) / 2

/-! ## Trimmed mean -/

/-- The loop of `strip_nans`, `src/GroupBy.cpp:169-194`, from `i` and `j`: the array and the number of valid elements. -/
def stripNans (valid : α → Bool) : Nat → List α → Nat → Nat → Option (List α × Nat)
  | 0, _, _, _ => none
  | k + 1, a, i, j =>
    if i < j then
      a[i]?.bind fun x =>
        if valid x then stripNans valid k a (i + 1) j
        else a[j - 1]?.bind fun y =>
          if valid y then (swap a (j - 1) i).bind fun b => stripNans valid k b (i + 1) (j - 1)
          else stripNans valid k a i (j - 1)
    else some (a, i)

/-- `AccumTrimMeanBR` on the values of one group, `src/GroupBy.cpp:2067-2103`.  `trim` is `ntrimbad` (`130-158`), which
uses `exp` and `sqrt`; its value is at least 1 and at most its argument.  Sums are exact.  `cast` is the conversion to
the type of the column in `(T)(sum / cnt)`. -/
def trimOf (nth : List α → Nat → List α) (lt : α → α → Bool) (valid : α → Bool) (num : α → Rat)
    (trim : Nat → Nat) (cast : Rat → U) (inv : U) (l : List α) : Option U :=
  (stripNans valid (l.length + 1) l 0 l.length).bind fun r =>
    let v := r.1.take r.2
    let n := r.2
    if n = 0 then some inv
    else if n ≤ 2 * trim n then some inv
    else
      (getNth nth v (trim n - 1)).bind fun lb =>
        let v1 := nth v (trim n - 1)
        (getNth nth v1 (n - trim n)).map fun ub =>
          let v2 := nth v1 (n - trim n)
          if lt ub lb then inv
          else
            let w := v2.filter fun z => !lt z lb && !lt ub z
            if w.length = 0 then inv else cast ((w.map num).sum / w.length)

/-- `(T)x` for an integer type: towards zero. -/
def truncate (x : Rat) : Rat := if 0 ≤ x then (x.floor : Rat) else (x.ceil : Rat)

end Riptide.Median
