import Verif.Work.Model
import Verif.Common.Num
/-! Packing the rows of groups: `BinCount`, `GroupFromBinCount`, `GroupByPack32`, `MakeiNext`
(`src/MultiKey.cpp`).  Keys are `List Int` (the value of each row's key in its own integer type).
`none` at the top level is undefined behaviour; `none` inside an array is an entry that was
allocated but never written. -/
namespace Riptide.Pack
open Riptide.Work

/-- The type of counts, cursors and row numbers: `src/MultiKey.cpp:2076-2080` and `2425-2439`. -/
def outType (rows : Nat) : IT := if rows > 2000000000 then .i64 else .i32

/-! ## Counting -/

/-- Count one row, `src/MultiKey.cpp:2228-2233`; reading past the end of the keys is undefined. -/
def countStep (keys : List Int) (bins : Nat) (count : List Nat) (i : Nat) : Option (List Nat) :=
  match keys[i]? with
  | none => none
  | some key =>
    if 0 ≤ key ∧ key < (bins : Int) then some (count.modify key.toNat (· + 1)) else some count

/-- `BinCountAlgo`, `src/MultiKey.cpp:2208-2235`, on rows `[lo, hi)`: zero fill, then count the
keys in `[0, bins)`.  Counts are exact numbers; `outType_fits` shows that they fit the output
type. -/
def binCountAlgo (keys : List Int) (lo hi bins : Nat) : Option (List Nat) :=
  (List.range' lo (hi - lo)).foldlM (countStep keys bins) (List.replicate bins 0)

/-- Work item `t` of `InternalBinCount` fills the array of core `t`,
`src/MultiKey.cpp:2349-2364`. -/
def coreStep (keys : List Int) (segs : List (Nat × Nat)) (bins : Nat)
    (mem : List (Option (List Nat))) (t : Nat) : Option (List (Option (List Nat))) :=
  match segs[t]? with
  | none => none
  | some s => (binCountAlgo keys s.1 s.2 bins).map fun c => mem.set t (some c)

/-- The per-core count arrays of `InternalBinCount`, `src/MultiKey.cpp:2300-2372`; `calls` is the
order in which the items are executed.  (The items share no memory, so running each as a unit loses
nothing.)  `none` if an array is left unwritten. -/
def perCore (keys : List Int) (segs : List (Nat × Nat)) (bins : Nat) (calls : List Nat) :
    Option (List (List Nat)) :=
  (calls.foldlM (coreStep keys segs bins) (List.replicate segs.length none)).bind fun mem =>
    mem.mapM id

/-- The element-wise sum over cores, `src/MultiKey.cpp:2471-2503`: copy the array of core 0, add
the others.  With no core at all the copy reads memory that was never allocated. -/
def sumCores : List (List Nat) → Option (List Nat)
  | [] => none
  | c :: cs => some (cs.foldl (fun (acc : List Nat) d => List.zipWith (· + ·) acc d) c)

/-- `BinCount` without `pack`, `src/MultiKey.cpp:2406-2469, 2645-2655`: an error (`some none`)
without rows or bins; several cores when threading is on, there are more than 32000 rows and more
than 50 rows per bin; otherwise one pass.  `calls` is the order of the work items. -/
def binCount (keys : List Int) (bins futexWakeup : Nat) (noThreading : Bool) (calls : List Nat) :
    Option (Option (List Nat)) :=
  if bins = 0 ∨ keys.length = 0 then some none
  else if noThreading = false ∧ keys.length > 32000 ∧ keys.length / bins > 50 then do
    let mem ← perCore keys (segmentBins keys.length futexWakeup 31) bins calls
    let c ← sumCores mem
    some (some c)
  else (binCountAlgo keys 0 keys.length bins).map some

/-! ## Counting sort with cursors -/

/-- One memory step of a packing worker: take the next free position of cursor `c` for a row
(`src/MultiKey.cpp:1879-1883`, `1979-1983`), or subtract the bin's count from the cursor
(`1988-1991`).  Different work items touch different cursors and positions, so a step is a unit. -/
inductive Ev where
  | put (c row : Nat)
  | sub (c : Nat) (amount : Int)
  deriving DecidableEq, Repr

/-- The cursor a step touches. -/
def Ev.cur : Ev → Nat
  | .put c _ => c
  | .sub c _ => c

/-- The cursors (`piFirstGroup`) and the output (`piGroup`). -/
structure St where
  cur : List Int
  group : List (Option Int)
  deriving DecidableEq, Repr

/-- Execute one step; a position outside `piGroup` is undefined. -/
def exec (s : St) : Ev → Option St
  | .put c row =>
    match s.cur[c]? with
    | none => none
    | some loc =>
      if 0 ≤ loc ∧ loc < (s.group.length : Int) then
        some ⟨s.cur.set c (loc + 1), s.group.set loc.toNat (some (row : Int))⟩
      else none
  | .sub c amount =>
    match s.cur[c]? with
    | none => none
    | some loc => some { s with cur := s.cur.set c (loc - amount) }

/-- Any interleaving of the steps of several work items. -/
inductive Interleaves {α : Type} : List (List α) → List α → Prop where
  | done {jobs : List (List α)} (h : ∀ j ∈ jobs, j = []) : Interleaves jobs []
  | step {jobs : List (List α)} {seq : List α} (t : Nat) (x : α) (xs : List α)
      (h : jobs[t]? = some (x :: xs)) (hs : Interleaves (jobs.set t xs) seq) :
      Interleaves jobs (x :: seq)

/-- The step for row `i` when its key is in `[binLow, binHigh)`: use cursor `base + key`. -/
def putStep (keys : List Int) (binLow binHigh base i : Nat) : Option Ev :=
  match keys[i]? with
  | none => none
  | some key =>
    if (binLow : Int) ≤ key ∧ key < (binHigh : Int) then some (Ev.put (base + key.toNat) i)
    else none

/-- The steps of `MakeiGroup`, `src/MultiKey.cpp:1960-1991`, for the bins `[binLow, binHigh)`. -/
def makeIGroup (keys : List Int) (count : List Int) (binLow binHigh : Nat) : List Ev :=
  (List.range keys.length).filterMap (putStep keys binLow binHigh 0) ++
  (List.range' binLow (binHigh - binLow)).map fun b => Ev.sub b (count[b]?.getD 0)

/-- The exclusive running sum of the counts, `src/MultiKey.cpp:2100-2125`; overflow of the output
type is undefined. -/
def cumsum (ot : IT) : Int → List Int → Option (List Int)
  | _, [] => some []
  | acc, c :: cs =>
    if ot.InRange (acc + c) then (cumsum ot (acc + c) cs).map fun r => acc :: r else none

/-- The bands of bins of `GroupFromBinCount`, `src/MultiKey.cpp:2132-2192`. -/
def packBands (rows bins futexWakeup : Nat) (noThreading : Bool) : List (Nat × Nat) :=
  if noThreading = false ∧ rows > 32000 then segmentBins bins futexWakeup 0 else [(0, bins)]

/-- The work item of one band. -/
def bandJob (keys count : List Int) (s : Nat × Nat) : List Ev := makeIGroup keys count s.1 s.2

/-- `GroupFromBinCount`, `src/MultiKey.cpp:2059-2199`: `(iGroup, iFirst)`.  `seq` is the executed
sequence of steps. -/
def groupFromBinCount (keys count : List Int) (seq : List Ev) :
    Option (List (Option Int) × List (Option Int)) := do
  let first ← cumsum (outType keys.length) 0 count
  let s ← seq.foldlM exec ⟨first, List.replicate keys.length none⟩
  some (s.group, s.cur.map some)

/-- The steps of `MakeiGroup2`, `src/MultiKey.cpp:1861-1886`, for the rows `[lo, hi)` of core `t`;
its cursors are row `t` of the matrix of counts. -/
def makeIGroup2 (keys : List Int) (bins t lo hi : Nat) : List Ev :=
  (List.range' lo (hi - lo)).filterMap (putStep keys 0 bins (t * bins))

/-- The running sum over the matrix of counts, bin by bin and core by core within a bin,
`src/MultiKey.cpp:2527-2545`: each entry is replaced by the sum of the entries before it.
`order` lists the positions of the matrix in the order they are visited. -/
def prefixSums (mem : List Int) (order : List Nat) : List Int :=
  (order.foldl (fun (s : Int × List Int) p => (s.1 + s.2[p]?.getD 0, s.2.set p s.1)) (0, mem)).2

/-- The positions of the matrix in visiting order. -/
def colOrder (bins cores : Nat) : List Nat :=
  (List.range bins).flatMap fun i => (List.range cores).map fun t => t * bins + i

/-- `BinCount(pack=True)`, `src/MultiKey.cpp:2406-2640`: `(nCount, iGroup, iFirst)`; `calls` is the
order of the counting items and `seq` the executed sequence of packing steps. -/
def binCountPack (keys : List Int) (bins futexWakeup : Nat) (calls : List Nat) (seq : List Ev) :
    Option (Option (List (Option Int) × List (Option Int) × List (Option Int))) :=
  if bins = 0 ∨ keys.length = 0 then some none
  else do
    let segs := segmentBins keys.length futexWakeup 31
    let mem ← perCore keys segs bins calls
    let count ← sumCores mem
    let cursors := prefixSums (mem.flatten.map fun n : Nat => (n : Int)) (colOrder bins segs.length)
    let s ← seq.foldlM exec ⟨cursors, List.replicate keys.length none⟩
    some (some (count.map fun n : Nat => some (n : Int), s.group, (cursors.take bins).map some))

/-- The packing items of `BinCount(pack=True)`. -/
def packJob (keys : List Int) (bins : Nat) (segs : List (Nat × Nat)) (t : Nat) : List Ev :=
  match segs[t]? with
  | none => []
  | some s => makeIGroup2 keys bins t s.1 s.2

/-! ## Linked rows -/

/-- One row of the linking loops: the row's output is the last seen row of its group, and the row
becomes the last seen one.  `store` is the conversion of a row number to the type of the group
array.  A group outside the group array is skipped by `MakeNextKey` (`strict = false`) and is
undefined in `GroupByPackFixup32` (`strict = true`). -/
def linkStep (strict : Bool) (store : Nat → Int) (keys : List Int)
    (s : List (Option Int) × List Int) (i : Nat) : Option (List (Option Int) × List Int) :=
  match keys[i]? with
  | none => none
  | some g =>
    if 0 ≤ g ∧ g < (s.2.length : Int) then
      match s.2[g.toNat]? with
      | none => none
      | some v => some (s.1.set i (some v), s.2.set g.toNat (store i))
    else if strict then none else some s

/-- `MakeNextKey`, `src/MultiKey.cpp:486-540`: `mode = 0` visits the rows backwards.  The row
number is stored in the type of the keys.  The scratch array is taken to be allocated. -/
def makeNextKey (t : IT) (mode : Int) (bins : Nat) (keys : List Int) : Option (List (Option Int)) :=
  let rows := List.range keys.length
  ((if mode = 0 then rows.reverse else rows).foldlM
    (linkStep false (fun i => t.wrap (i : Int)) keys)
    (List.replicate keys.length none, List.replicate (bins + 1) t.inv)).map Prod.fst

/-- `GroupByPackFixup32`, `src/MultiKey.cpp:612-646`: the links and the first row of each group
(`GB_INVALID_INDEX = -1`).  Arrays of 2^31 rows or more (whose number of rows does not fit the
loop variable) are taken as undefined. -/
def packFixup (bins : Nat) (keys : List Int) : Option (List (Option Int) × List Int) :=
  if keys.length ≥ 2 ^ 31 then none
  else (List.range keys.length).reverse.foldlM (linkStep true (fun i => (i : Int)) keys)
    (List.replicate keys.length none, List.replicate (bins + 1) (-1))

/-- Follow a chain of links, `src/MultiKey.cpp:713-717` and its three copies: the rows written to
consecutive entries of `pSortArray`, of which `room` are left.  Writing past the end, and reading
a link outside the array or never written, are undefined. -/
def chain (next : List (Option Int)) : Nat → Int → Option (List Int)
  | 0, j => if j = -1 then some [] else none
  | room + 1, j =>
    if j = -1 then some []
    else if 0 ≤ j then
      match next[j.toNat]? with
      | some (some j') => (chain next room j').map fun l => j :: l
      | _ => none
    else none

/-- The arrays while `GroupByPackFinal32` runs: the written part of `pSortArray`, `pFirstArray`,
`pCountArray`. -/
structure Pk where
  run : List Int
  first : List (Option Int)
  count : List (Option Int)
  deriving DecidableEq, Repr

/-- Append the chain starting at `j` as the slice of bin `b`, `src/MultiKey.cpp:707-720`. -/
def addBin (n : Nat) (next : List (Option Int)) (s : Pk) (b : Nat) (j : Int) : Option Pk :=
  if b < s.first.length then
    (chain next (n - s.run.length) j).map fun l =>
      ⟨s.run ++ l, s.first.set b (some (s.run.length : Int)),
        s.count.set b (some (l.length : Int))⟩
  else none

/-- The arrays at the start, `src/MultiKey.cpp:683-691`; entry 0 of each is written at once, which
is outside `pSortArray` when there are no rows. -/
def packInit (n bins : Nat) : Option Pk :=
  if n = 0 then none
  else some ⟨[], (List.replicate (bins + 1) none).set 0 (some (-1)),
    (List.replicate (bins + 1) none).set 0 (some 0)⟩

/-- `pSortArray` at the end: entry 0 was set to -1 before the chains were written. -/
def Pk.sort (n : Nat) (s : Pk) : List (Option Int) :=
  s.run.map some ++ ((List.replicate n none).set 0 (some (-1))).drop s.run.length

/-- One bin of the loop over the first rows, `src/MultiKey.cpp:702-721`. -/
def headStep (n : Nat) (lg : List (Option Int) × List Int) (s : Pk) (b : Nat) : Option Pk :=
  match lg.2[b]? with
  | none => none
  | some j => addBin n lg.1 s b j

/-- `GroupByPack32` without links, `src/MultiKey.cpp:694-723, 841-950`:
`(iGroup, iFirst, nCount)`. -/
def groupByPack (bins : Nat) (keys : List Int) :
    Option (List (Option Int) × List (Option Int) × List (Option Int)) := do
  let lg ← packFixup bins keys
  let s0 ← packInit keys.length bins
  let s ← (List.range (bins + 1)).foldlM (headStep keys.length lg) s0
  some (s.sort keys.length, s.first, s.count)

/-- The scan for the first row of each bin in turn, `src/MultiKey.cpp:749-778`. -/
def scanHeads (keys : List Int) (next : List (Option Int)) (sl : Pk × Nat) (i : Nat) :
    Option (Pk × Nat) :=
  match keys[i]? with
  | none => none
  | some k =>
    if k = (sl.2 : Int) then
      (addBin keys.length next sl.1 sl.2 (i : Int)).map fun s => (s, sl.2 + 1)
    else some sl

/-- Chain the filtered bin first when row 0 is filtered, `src/MultiKey.cpp:726-747`. -/
def packStart (keys : List Int) (next : List (Option Int)) (s : Pk) : Option Pk :=
  if keys[0]? = some 0 then addBin keys.length next s 0 0 else some s

/-- Otherwise chain the filtered bin last, from its first row, `src/MultiKey.cpp:782-813`. -/
def packFinish (keys : List Int) (next : List (Option Int)) (s : Pk) : Option Pk :=
  if keys[0]? = some 0 then some s
  else match (List.range keys.length).find? (fun i => keys[i]? == some 0) with
    | none => some s
    | some i => addBin keys.length next s 0 (i : Int)

/-- `GroupByPack32` with links supplied by the caller, `src/MultiKey.cpp:724-814, 841-950`.  The
links are taken to be `int32` (the code does not check the type of that array), and arrays of 2^31
rows or more are taken as undefined. -/
def groupByPackNext (bins : Nat) (keys : List Int) (next : List Int) :
    Option (List (Option Int) × List (Option Int) × List (Option Int)) :=
  if keys.length ≥ 2 ^ 31 then none
  else do
    let nx := next.map some
    let s0 ← packInit keys.length bins
    let s1 ← packStart keys nx s0
    let s2 ← (List.range keys.length).foldlM (scanHeads keys nx) (s1, 1)
    let s3 ← packFinish keys nx s2.1
    some (s3.sort keys.length, s3.first, s3.count)

end Riptide.Pack
