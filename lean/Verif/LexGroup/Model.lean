import Verif.Common.Writes
import Verif.Str.Model
/-! # Model of `GroupFromLexSort`, `src/Sort.cpp:3690-4381`

Grouping from the row order produced by a sort. Rows and group numbers are unbounded here; in the code they are of
type `UINDEX` (`int32_t` or `int64_t`). A negative or too large row in the sort index reads and writes outside
the arrays: `none`. -/
namespace Riptide.LexGroup

/-- Whether two values differ in some word, word by word. -/
def wordNe : List (Nat × Bool) → List Nat → List Nat → Bool
  | [], _, _ => false
  | (w, _) :: ws, s1, s2 => Str.le (s1.take w) ≠ Str.le (s2.take w) || wordNe ws (s1.drop w) (s2.drop w)

/-- `BINARY_LT`, `src/Sort.cpp:323-503`: nonzero when the values differ, except that for width 7 the last byte is
compared with `<` (line 395). The words are those of `VOID_LT`. -/
def binaryLt (s1 s2 : List Nat) : Bool :=
  if s1.length = 7 then
    wordNe [(4, true), (2, true)] s1 s2 || decide (s1.getD 6 0 < s2.getD 6 0)
  else wordNe (Str.wordsFrom true s1.length) s1 s2

/-- The comparison of `GroupIndex`, `src/Sort.cpp:3894-3916`: integers of 1, 2, 4 and 8 bytes (whatever the type of
the values), else `BINARY_LT`. Values are lists of bytes. -/
def differ (width : Nat) (a b : List Nat) : Bool :=
  if width = 1 ∨ width = 2 ∨ width = 4 ∨ width = 8 then decide (Str.le a ≠ Str.le b) else binaryLt a b

/-- The writes to `pGroupOut`, `pFirstOut` and `pCountOut`, and the number of groups. -/
structure GW where
  keys : List (Nat × Nat)
  firsts : List (Nat × Nat)
  counts : List (Nat × Nat)
  n : Nat
  deriving DecidableEq

/-- The loop of `GroupIndexStep2` and `GroupIndexStep2String`, `src/Sort.cpp:3754-3820`, 3838-3862. The count of a group is
written at its number plus `cslot`. -/
def loop {α : Type} (diff : α → α → Bool) (vals : List α) (base cslot : Nat) : List Nat → α → Nat → Nat → Option GW
  | [], _, cnt, grp => some ⟨[], [], [(grp + cslot, cnt)], grp + 1⟩
  | i :: is, v, cnt, grp =>
    vals[i]?.bind fun v2 =>
      if diff v v2 then
        (loop diff vals base cslot is v2 1 (grp + 1)).map fun w =>
          { w with keys := (i, grp + 1 + base) :: w.keys, firsts := (grp + 1, i) :: w.firsts,
                   counts := (grp + cslot, cnt) :: w.counts }
      else
        (loop diff vals base cslot is v (cnt + 1) grp).map fun w => { w with keys := (i, grp + base) :: w.keys }

/-- `GroupIndexStep2` and `GroupIndexStep2String`, `src/Sort.cpp:3690-3863`, for at least one row; none for no
rows (lines 3889-3892). With `cslot = 1` the count of the zero bin is set first. -/
def groupIndex {α : Type} (diff : α → α → Bool) (vals : List α) (base cslot : Nat) : List Nat → Option GW
  | [] => some ⟨[], [], [], 0⟩
  | i :: is =>
    vals[i]?.bind fun v =>
      (loop diff vals base cslot is v 1 0).map fun w =>
        { w with keys := (i, base) :: w.keys, firsts := (0, i) :: w.firsts,
                 counts := (if cslot = 1 then [(0, 0)] else []) ++ w.counts }

/-- Where the first count goes: the number version shifts it with the base, the string version does not
(`src/Sort.cpp:3835`, 3853, 3861). -/
def cslotOf (width base : Nat) : Nat :=
  if width = 1 ∨ width = 2 ∨ width = 4 ∨ width = 8 then base else 1

/-- What is returned: group number of every value, first row of every group, counts. `none` inside: not initialised. -/
structure GOut where
  keys : List (Option Nat)
  firsts : List (Option Nat)
  counts : List (Option Nat)
  deriving DecidableEq

/-- `GroupFromLexSortInternal` without cutoffs, `src/Sort.cpp:3927-3983`, 4294-4319: the arrays are allocated for the
worst case and then cut down to `n` and `n + 1` entries. -/
def group {α : Type} (diff : α → α → Bool) (cslot base : Nat) (vals : List α) (index : List Nat) : Option GOut :=
  (groupIndex diff vals base cslot index).bind fun w =>
    (runWrites vals.length w.keys).bind fun k =>
      (runWrites index.length w.firsts).bind fun f =>
        (runWrites (index.length + 1) w.counts).map fun c => ⟨k, f.take w.n, c.take (w.n + 1)⟩

/-- `GroupFromLexSort(index, values)` for values of the given width. -/
def groupFrom (width base : Nat) (vals : List (List Nat)) (index : List Nat) : Option GOut :=
  if vals.length < index.length then none
  else group (differ width) (cslotOf width base) base vals index

/-! ### With cutoffs -/

/-- First row of partition `t`, `src/Sort.cpp:4041-4048`. -/
def lo (cuts : List Nat) (t : Nat) : Nat := if t = 0 then 0 else cuts.getD (t - 1) 0

/-- Length of partition `t`. -/
def len (cuts : List Nat) (t : Nat) : Nat := cuts.getD t 0 - lo cuts t

/-- The work on partition `t`, `src/Sort.cpp:4034-4068`: pointers moved to the start of the partition, base 0. -/
def partIndex {α : Type} (diff : α → α → Bool) (cslot : Nat) (vals : List α) (index cuts : List Nat) (t : Nat) :
    Option GW :=
  groupIndex diff (vals.drop (lo cuts t)) 0 cslot ((index.drop (lo cuts t)).take (len cuts t))

/-- The same writes seen from the start of the arrays. -/
def moved (d : Nat) (ws : List (Nat × Nat)) : List (Nat × Nat) := ws.map fun w => (d + w.1, w.2)

/-- All work items of the first round. -/
def allParts {α : Type} (diff : α → α → Bool) (cslot : Nat) (vals : List α) (index cuts : List Nat) : Option (List GW) :=
  (List.range cuts.length).mapM (partIndex diff cslot vals index cuts)

/-- Groups before partition `t`, `src/Sort.cpp:4074-4079`. -/
def before (ws : List GW) (t : Nat) : Nat := ((ws.take t).map GW.n).sum

/-- Second round for partition `t`, `src/Sort.cpp:4136-4275`: its rows of the keys are moved by the groups before plus
one (uninitialised ones stay so). For partition 0 the code adds `partStart + 1`, which is 1. -/
def fixKeys (ws : List GW) (cuts : List Nat) (k : List (Option Nat)) (t : Nat) : List (Option Nat) :=
  k.mapIdx fun p o => if lo cuts t ≤ p ∧ p < lo cuts t + len cuts t then o.map fun g => g + (before ws t + 1) else o

/-- The first rows of the groups of partition `t`. -/
def fixFirsts (ws : List GW) (cuts : List Nat) (f : List (Option Nat)) (t : Nat) : List (Option Nat) :=
  ((f.drop (lo cuts t)).take ((ws[t]?.map GW.n).getD 0)).map fun o => o.map fun i => i + lo cuts t

/-- The counts of the groups of partition `t`. -/
def fixCounts (ws : List GW) (cuts : List Nat) (c : List (Option Nat)) (t : Nat) : List (Option Nat) :=
  (c.drop (lo cuts t)).take ((ws[t]?.map GW.n).getD 0)

/-- What is returned with cutoffs: also the running number of groups. -/
structure POut where
  keys : List (Option Nat)
  firsts : List (Option Nat)
  counts : List (Option Nat)
  uniques : List Nat
  deriving DecidableEq

/-- The result with cutoffs, given the order in which the writes of the first round reach the arrays
(`kw`, `fw`, `cw`; any interleaving of the work items) and the order of the items of the second round.
Simplification: the items of the second round copy first rows and counts to disjoint places, one after
the other here. -/
def finish (nVals nIndex : Nat) (cuts : List Nat) (ws : List GW) (kw fw cw : List (Nat × Nat)) (order : List Nat) :
    Option POut :=
  (runWrites nVals kw).bind fun k =>
    (runWrites nIndex fw).bind fun f =>
      (runWrites (nIndex + 1 + cuts.length) cw).map fun c =>
        ⟨order.foldl (fixKeys ws cuts) k,
         (List.range cuts.length).flatMap (fixFirsts ws cuts f),
         some 0 :: (List.range cuts.length).flatMap (fixCounts ws cuts c),
         (List.range cuts.length).map fun t => before ws (t + 1)⟩

/-- The writes of the first round to the three arrays, partition by partition. -/
def writesOf (sel : GW → List (Nat × Nat)) (cuts : List Nat) (ws : List GW) : List (Nat × Nat) :=
  ws.zipIdx.flatMap fun p => moved (lo cuts p.2) (sel p.1)

/-- Every result of `GroupFromLexSort` with cutoffs: the writes reach memory in any order. -/
inductive GroupParts {α : Type} (diff : α → α → Bool) (cslot : Nat) (vals : List α) (index cuts : List Nat) :
    Option POut → Prop
  | oob (h : allParts diff cslot vals index cuts = none) : GroupParts diff cslot vals index cuts none
  | run (ws : List GW) (kw fw cw : List (Nat × Nat)) (order : List Nat)
      (h : allParts diff cslot vals index cuts = some ws)
      (hk : kw.Perm (writesOf GW.keys cuts ws)) (hf : fw.Perm (writesOf GW.firsts cuts ws))
      (hc : cw.Perm (writesOf GW.counts cuts ws)) (ho : order.Perm (List.range cuts.length)) :
      GroupParts diff cslot vals index cuts (finish vals.length index.length cuts ws kw fw cw order)

end Riptide.LexGroup
