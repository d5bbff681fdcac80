import Verif.Common.Writes
import Verif.Common.Num
import Verif.GroupBy.Model
/-! Functions over packed groups (`GroupByAllPack32`): first, last, nth, and the rolling functions.

The arrays `iGroup`, `iFirst`, `nCount` are lists of entries, `none` being one that was never written.
Reading such an entry, or outside an array, is undefined behaviour: the whole result is `none`.  The
kernels only write to their output, so they are modelled by the list of their writes in order.
`is_interrupted()` is assumed false. -/
namespace Riptide.Rolling

variable {T U S : Type}

/-- The arguments `iGroup`, `iFirst`, `nCount`; `vt` is their element type `V` (int32 or int64,
`src/GroupBy.cpp:4896-4920`). -/
structure Packed where
  vt : IT
  group : List (Option Int)
  first : List (Option Int)
  count : List (Option Int)

/-- `p[i]` for the three index arrays. -/
def rd (a : List (Option Int)) (i : Int) : Option Int :=
  if 0 ≤ i then (a[i.toNat]?).join else none

/-- `pSrc[i]`. -/
def rdS (src : List T) (i : Int) : Option T := if 0 ≤ i then src[i.toNat]? else none

/-- `for (j = a; j < b; j++)`. -/
def upTo (a b : Int) : List Int := (List.range (b - a).toNat).map fun (k : Nat) => a + (k : Int)

/-- `for (j = a; j > b; j--)`. -/
def downTo (a b : Int) : List Int := (List.range (a - b).toNat).map fun (k : Nat) => a - (k : Int)

/-- The writes of a kernel executed on a fresh output of `n` entries; a write outside is undefined
behaviour. -/
def store (n : Nat) (ws : List (Int × U)) : Option (List (Option U)) :=
  if ws.all fun w => decide (0 ≤ w.1) then runWrites n (ws.map fun w => (w.1.toNat, w.2)) else none

/-- A kernel over the bins `[lo, hi)`, the writes of one bin given by `f`
(`for (int64_t i = binLow; i < binHigh; i++)`). -/
def overBins (f : Int → Option (List (Int × U))) (lo hi : Int) : Option (List (Int × U)) :=
  ((upTo lo hi).mapM f).map List.flatten

/-! ## First, last, nth -/

/-- The value at position `p` of `iGroup`. -/
def srcAt (src : List T) (P : Packed) (p : Int) : Option T := (rd P.group p).bind (rdS src)

/-- `nth >= 0 ? nth : pCount[i] + nth`, `src/GroupBy.cpp:1195`. -/
def nthIndex (n cnt : Int) : Int := if 0 ≤ n then n else cnt + n

/-- One bin of `AccumNth`, `src/GroupBy.cpp:1193-1205`.  (The position is added in 64 bits and stored
in `V`; it never exceeds the array, so no wrap is modelled.) -/
def nthBin (inv : T) (src : List T) (P : Packed) (n : Int) (i : Int) : Option (List (Int × T)) :=
  (rd P.count i).bind fun c =>
    if 0 < c ∧ 0 ≤ nthIndex n c ∧ nthIndex n c < c then
      (rd P.first i).bind fun f => (srcAt src P (f + nthIndex n c)).map fun v => [(i, v)]
    else some [(i, inv)]

/-- One bin of `AccumFirst`, `src/GroupBy.cpp:1259-1269`. -/
def firstBin (inv : T) (src : List T) (P : Packed) (i : Int) : Option (List (Int × T)) :=
  (rd P.count i).bind fun c =>
    if 0 < c then
      (rd P.first i).bind fun f => (srcAt src P f).map fun v => [(i, v)]
    else some [(i, inv)]

/-- One bin of `AccumLast`, `src/GroupBy.cpp:1319-1330`. -/
def lastBin (inv : T) (src : List T) (P : Packed) (i : Int) : Option (List (Int × T)) :=
  (rd P.count i).bind fun c =>
    if 0 < c then
      (rd P.first i).bind fun f => (srcAt src P (f + c - 1)).map fun v => [(i, v)]
    else some [(i, inv)]

/-- `AccumNth` over a range of bins; the output has `uniq` entries (`unique_rows + 1`,
`src/GroupBy.cpp:4919`, `5105`).  The `String` versions (1209-1238) move `itemSize` bytes instead
of one value and use zero bytes for `inv`; `T` is then a string. -/
def accumNth (inv : T) (src : List T) (P : Packed) (n : Int) (uniq : Nat) (lo hi : Int) :
    Option (List (Option T)) := (overBins (nthBin inv src P n) lo hi).bind (store uniq)

/-- `AccumFirst` and `AccumFirstString` (`src/GroupBy.cpp:1273-1299`). -/
def accumFirst (inv : T) (src : List T) (P : Packed) (uniq : Nat) (lo hi : Int) :
    Option (List (Option T)) := (overBins (firstBin inv src P) lo hi).bind (store uniq)

/-- `AccumLast` and `AccumLastString` (`src/GroupBy.cpp:1334-1357`). -/
def accumLast (inv : T) (src : List T) (P : Packed) (uniq : Nat) (lo hi : Int) :
    Option (List (Option T)) := (overBins (lastBin inv src P) lo hi).bind (store uniq)

/-! ## Loops over the rows of a bin -/

/-- One iteration writing at `pGroup[j]`: `g` gives the new state and the value. -/
def emitStep (P : Packed) (g : S → Int → Int → Option (S × U)) (s : S × List (Int × U)) (j : Int) :
    Option (S × List (Int × U)) :=
  (rd P.group j).bind fun idx => (g s.1 j idx).map fun r => (r.1, s.2 ++ [(idx, r.2)])

/-- A loop over positions. -/
def emitLoop (P : Packed) (g : S → Int → Int → Option (S × U)) (js : List Int)
    (s : S × List (Int × U)) : Option (S × List (Int × U)) := js.foldlM (emitStep P g) s

/-- `pDest[pGroup[j]] = invalid`. -/
def invStep (inv : U) (s : S) (_j _idx : Int) : Option (S × U) := some (s, inv)

/-- The rows of bin 0: `if (binLow == 0) …`, e.g. `src/GroupBy.cpp:1376-1388`. -/
def zeroBin (P : Packed) (inv : U) : Option (List (Int × U)) :=
  (rd P.first 0).bind fun f => (rd P.count 0).bind fun c =>
    (emitLoop P (invStep inv) (upTo f (f + c)) ((), [])).map Prod.snd

/-- A kernel: bin 0 if it is in the range, then the other bins. -/
def rolling (P : Packed) (inv : U) (bin : Int → Option (List (Int × U))) (lo hi : Int) :
    Option (List (Int × U)) :=
  if lo = 0 then (zeroBin P inv).bind fun w0 => (overBins bin 1 hi).map fun ws => w0 ++ ws
  else overBins bin lo hi

/-- `start + windowSize` in 64 bits; signed overflow is undefined behaviour. -/
def add64 (a b : Int) : Option Int :=
  if IT.i64.lo ≤ a + b ∧ a + b ≤ IT.i64.hi then some (a + b) else none

/-- The two loops of a forward kernel: positions below `start + w` with `g1`, then from
`(V)(start + w)` with `g2`, e.g. `src/GroupBy.cpp:1402-1420`.  The start of the second loop is
converted to the type of the index arrays. -/
def forward (P : Packed) (g1 g2 : S → Int → Int → Option (S × U)) (s0 : S) (w : Int) (i : Int) :
    Option (List (Int × U)) :=
  (rd P.first i).bind fun f => (rd P.count i).bind fun c => (add64 f w).bind fun fw =>
    ((emitLoop P g1 (upTo f (min (f + c) fw)) (s0, [])).bind
      (emitLoop P g2 (upTo (P.vt.wrap fw) (f + c)))).map Prod.snd

/-- The two loops of a backward kernel, `w > 0` rows: e.g. `src/GroupBy.cpp:1876-1910`. -/
def backward (P : Packed) (g1 g2 : S → Int → Int → Option (S × U)) (s0 : S) (w : Int) (i : Int) :
    Option (List (Int × U)) :=
  (rd P.first i).bind fun f => (rd P.count i).bind fun c => (add64 (f + c - 1) (-w)).bind fun lw =>
    ((emitLoop P g1 (downTo (f + c - 1) (max (f - 1) lw)) (s0, [])).bind
      (emitLoop P g2 (downTo (P.vt.wrap lw) (f - 1)))).map Prod.snd

/-! ## Rolling sums and means -/

/-- How a running total is kept: `zero`, adding and removing a value, and the value written from the
total and the number of rows in the window. -/
structure Run (T S U : Type) where
  zero : S
  push : S → T → S
  pop : S → T → S
  emit : S → Int → U

/-- First loop: add the value, write (`src/GroupBy.cpp:1402-1408`, `1541-1547`); the number of rows so
far is `j - start + 1`. -/
def primeStep (R : Run T S U) (src : List T) (f : Int) (s : S) (j idx : Int) : Option (S × U) :=
  (rdS src idx).map fun x => (R.push s x, R.emit (R.push s x) (j - f + 1))

/-- Second loop: add the value, subtract the one leaving the window, write
(`src/GroupBy.cpp:1410-1420`, `1549-1559`). -/
def slideStep (R : Run T S U) (src : List T) (P : Packed) (w : Int) (s : S) (j idx : Int) :
    Option (S × U) :=
  (rdS src idx).bind fun x => (srcAt src P (j - w)).map fun y =>
    (R.pop (R.push s x) y, R.emit (R.pop (R.push s x) y) w)

/-- One bin of a rolling sum or mean. -/
def runBin (R : Run T S U) (src : List T) (P : Packed) (w : Int) (i : Int) :
    Option (List (Int × U)) :=
  (rd P.first i).bind fun f => forward P (primeStep R src f) (slideStep R src P w) R.zero w i

/-- `AccumRollingSum`, `AccumRollingNanSum`, `AccumRollingMean`, `AccumRollingNanMean`,
`src/GroupBy.cpp:1361-1637`.  A negative window returns after bin 0.  The output has as many entries
as the column (`AllocateLikeNumpyArray`, 5101). -/
def accumRolling (R : Run T S U) (inv : U) (src : List T) (P : Packed) (w : Int) (lo hi : Int) :
    Option (List (Option U)) :=
  (if w < 0 then (if lo = 0 then zeroBin P inv else some [])
   else rolling P inv (runBin R src P w) lo hi).bind (store src.length)

/-- `AccumRollingSum` on an integer column with output type `u`: the values are added as they are,
the invalid ones too. -/
def intRun (u : IT) : Run Int Int Int :=
  ⟨0, fun s x => u.wrap (s + u.wrap x), fun s x => u.wrap (s - u.wrap x), fun s _ => s⟩

/-- `AccumRollingNanSum` on an integer column of type `t`. -/
def intNanRun (t u : IT) : Run Int Int Int :=
  ⟨0, fun s x => if x = t.inv then s else u.wrap (s + u.wrap x),
    fun s x => if x = t.inv then s else u.wrap (s - u.wrap x), fun s _ => s⟩

open GroupBy (Val rndTo)

/-- `a - b` of doubles holding integers. -/
def valSub (r : Int → Int) : Val → Val → Val
  | .num a, .num b => .num (r (a - b))
  | _, _ => .nan

/-- `AccumRollingSum` on a floating-point column. -/
def valRun (f : FT) : Run (Option Int) Val Val :=
  ⟨.num 0, fun s x => Val.add (rndTo f) s (Val.ofCol (rndTo f) x),
    fun s x => valSub (rndTo f) s (Val.ofCol (rndTo f) x), fun s _ => s⟩

/-- `AccumRollingMean`: as the sum, in double, and a division by the number of rows.  (`none` in an
integer column is not NaN but the sentinel; the model covers integer columns without it.) -/
def meanRun : Run (Option Int) Val Val :=
  { valRun .f64 with emit := fun s n => Val.div s n }

/-- Adding when valid, `src/GroupBy.cpp:1607-1611`. -/
def nanPush (s : Val × Int) (x : Option Int) : Val × Int :=
  if x.isSome then (Val.add (rndTo .f64) s.1 (Val.ofCol (rndTo .f64) x), s.2 + 1) else s

/-- Removing when valid, `src/GroupBy.cpp:1627-1632`. -/
def nanPop (s : Val × Int) (x : Option Int) : Val × Int :=
  if x.isSome then (valSub (rndTo .f64) s.1 (Val.ofCol (rndTo .f64) x), s.2 - 1) else s

/-- `AccumRollingNanMean`, `src/GroupBy.cpp:1563-1637`. -/
def nanMeanRun : Run (Option Int) (Val × Int) Val :=
  ⟨(.num 0, 0), nanPush, nanPop, fun s _ => if 0 < s.2 then Val.div s.1 s.2 else .nan⟩

/-- `AccumRollingNanSum` on a `double` column. -/
def nanSumRun : Run (Option Int) (Val × Int) Val := ⟨(.num 0, 0), nanPush, nanPop, fun s _ => s.1⟩

/-! ## Count, shift, diff -/

/-- `pDest[index] = currentSum; currentSum += 1`, `src/GroupBy.cpp:1783-1785`.  (The counter is an
int32, `3798`; its overflow is not modelled.) -/
def countStep (s : Int) (_j _idx : Int) : Option (Int × Int) := some (s + 1, s)

/-- One bin of `AccumRollingCount`, `src/GroupBy.cpp:1772-1797`. -/
def countBin (P : Packed) (w : Int) (i : Int) : Option (List (Int × Int)) :=
  (rd P.first i).bind fun f => (rd P.count i).bind fun c =>
    (emitLoop P countStep (if w < 0 then downTo (f + c - 1) (f - 1) else upTo f (f + c)) (0, [])).map
      Prod.snd

/-- `AccumRollingCount`; `n` rows. -/
def accumCount (n : Nat) (P : Packed) (w : Int) (lo hi : Int) : Option (List (Option Int)) :=
  (rolling P IT.i32.inv (countBin P w) lo hi).bind (store n)

/-- `pDest[index] = pSrc[pGroup[j - windowSize]]`, `src/GroupBy.cpp:1862-1872`; the backward loop
(1897-1907) is the same with the signed window. -/
def shiftStep (src : List T) (P : Packed) (w : Int) (s : Unit) (j _idx : Int) : Option (Unit × T) :=
  (srcAt src P (j - w)).map fun v => (s, v)

/-- One bin of `AccumRollingShift`, `src/GroupBy.cpp:1841-1913`.  (`-windowSize` of the smallest
int64 is not modelled.) -/
def shiftBin (inv : T) (src : List T) (P : Packed) (w : Int) (i : Int) : Option (List (Int × T)) :=
  if 0 ≤ w then forward P (invStep inv) (shiftStep src P w) () w i
  else backward P (invStep inv) (shiftStep src P w) () (-w) i

/-- `AccumRollingShift`.  For strings `T` is a string and `inv` the zero string. -/
def accumShift (inv : T) (src : List T) (P : Packed) (w : Int) (lo hi : Int) :
    Option (List (Option T)) :=
  (rolling P inv (shiftBin inv src P w) lo hi).bind (store src.length)

/-- `temp - previous` of the row and the one `w` away, `src/GroupBy.cpp:1984-1990`, `2007-2013`. -/
def diffStep (sub : T → T → U) (src : List T) (P : Packed) (w : Int) (s : Unit) (j idx : Int) :
    Option (Unit × U) :=
  (rdS src idx).bind fun x => (srcAt src P (j - w)).map fun y => (s, sub x y)

/-- The loop for window 1, keeping the previous value, `src/GroupBy.cpp:1959-1966`. -/
def diffOneStep (sub : T → T → U) (src : List T) (prev : T) (_j idx : Int) : Option (T × U) :=
  (rdS src idx).map fun x => (x, sub x prev)

/-- One bin with window 1, `src/GroupBy.cpp:1947-1968`. -/
def diffOneBin (sub : T → T → U) (inv : U) (src : List T) (P : Packed) (i : Int) :
    Option (List (Int × U)) :=
  (rd P.first i).bind fun f => (rd P.count i).bind fun c =>
    if f < f + c then
      (rd P.group f).bind fun idx => (rdS src idx).bind fun x =>
        (emitLoop P (diffOneStep sub src) (upTo (f + 1) (f + c)) (x, [(idx, inv)])).map Prod.snd
    else some []

/-- One bin of `AccumRollingDiff`, `src/GroupBy.cpp:1945-2022`. -/
def diffBin (sub : T → T → U) (inv : U) (src : List T) (P : Packed) (w : Int) (i : Int) :
    Option (List (Int × U)) :=
  if w = 1 then diffOneBin sub inv src P i
  else if 0 ≤ w then forward P (invStep inv) (diffStep sub src P w) () w i
  else backward P (invStep inv) (diffStep sub src P w) () (-w) i

/-- `AccumRollingDiff`. -/
def accumDiff (sub : T → T → U) (inv : U) (src : List T) (P : Packed) (w : Int) (lo hi : Int) :
    Option (List (Option U)) :=
  (rolling P inv (diffBin sub inv src P w) lo hi).bind (store src.length)

end Riptide.Rolling
