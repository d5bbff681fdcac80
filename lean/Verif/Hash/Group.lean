import Verif.Hash.Loop
import Verif.Hash.Size
/-! # Model of the grouping loops, `src/HashLinear.cpp`

Row and group numbers are natural numbers: the callers use 32-bit indexes up to 2100000000 rows and
64-bit indexes above (`src/MultiKey.cpp:1009-1013`, 1287-1290), so they always fit the index type. -/
namespace Riptide.Hash

/-- What the grouping loops write: the bin of every row, the first row of every bin. -/
structure GroupOut where
  bins : List Nat
  firsts : List Nat
  deriving DecidableEq, Repr

/-- The empty output, before the first row. -/
def GroupOut.init : GroupOut := ⟨[], []⟩

/-- One row of `GROUPBY_INNER_LOOP` and `GROUPBY_INNER_LOOP_PERFECT`, `src/HashLinear.cpp:2575-2632`, with the
filter test of `GroupByItemSize` / `GroupByFloat`, 2698-2949: the table holds the number of each key's
group; a new key gets the next one. -/
def groupPlan {K : Type} (s : GroupOut) (r : K × Bool) : Op K Nat :=
  if r.2 then .put r.1 (s.firsts.length + 1) id else .skip

/-- What is written for the row (`i` is the number of rows done). -/
def groupNext {K : Type} (s : GroupOut) (r : K × Bool) (old : Option Nat) : GroupOut :=
  if r.2 then
    match old with
    | some g => ⟨s.bins ++ [g], s.firsts⟩
    | none => ⟨s.bins ++ [s.firsts.length + 1], s.firsts ++ [s.bins.length]⟩
  else ⟨s.bins ++ [0], s.firsts⟩

/-- `GroupByItemSize` for 4- and 8-byte keys and `GroupByFloat` (called with the bit patterns,
`src/HashLinear.cpp:5159-5180`): rows of keys with a filter flag (no filter: all True). -/
def groupBy {K : Type} [DecidableEq K] (hash : K → Nat) (size : Nat) (rows : List (K × Bool)) :
    Except Fault GroupOut :=
  (tableLoop (probing hash) groupPlan groupNext (fresh K Nat size) .init rows).map Prod.snd

/-- `GroupByItemSize` for 1- and 2-byte keys. -/
def groupBySmall (size : Nat) (rows : List (Nat × Bool)) : Except Fault GroupOut :=
  (tableLoop (perfect size) groupPlan groupNext (fresh Nat Nat size) .init rows).map Prod.snd

/-- The multi-column variant, `GroupBy`, `src/HashLinear.cpp:2956-3099`: the table holds the first row of
each key and the group is read back from that row's bin. -/
def groupMkPlan {K : Type} (s : GroupOut) (r : K × Bool) : Op K Nat :=
  if r.2 then .put r.1 s.bins.length id else .skip

/-- What it writes for a row; the read of `pIndexArray[Last]` is a list access. -/
def groupMkNext {K : Type} (s : GroupOut) (r : K × Bool) (old : Option Nat) : GroupOut :=
  if r.2 then
    match old with
    | some j => ⟨s.bins ++ [s.bins.getD j 0], s.firsts⟩
    | none => ⟨s.bins ++ [s.firsts.length + 1], s.firsts ++ [s.bins.length]⟩
  else ⟨s.bins ++ [0], s.firsts⟩

/-- `GroupBy` on keys of any width (`K`: the bytes of a row). -/
def groupByMk {K : Type} [DecidableEq K] (hash : K → Nat) (size : Nat) (rows : List (K × Bool)) :
    Except Fault GroupOut :=
  (tableLoop (probing hash) groupMkPlan groupMkNext (fresh K Nat size) .init rows).map Prod.snd

/-- What `Unique` writes: first row and number of rows of every distinct key. -/
structure UniqueOut where
  row : Nat
  index : List Nat
  counts : List Nat
  deriving DecidableEq, Repr

/-- `Unique`, `src/HashLinear.cpp:3325-3478`: the table holds the position of the key among the uniques. -/
def uniquePlan {K : Type} (s : UniqueOut) (r : K × Bool) : Op K Nat :=
  if r.2 then .put r.1 s.index.length id else .skip

/-- One row of `Unique`. -/
def uniqueNext {K : Type} (s : UniqueOut) (r : K × Bool) (old : Option Nat) : UniqueOut :=
  if r.2 then
    match old with
    | some g => ⟨s.row + 1, s.index, s.counts.modify g (· + 1)⟩
    | none => ⟨s.row + 1, s.index ++ [s.row], s.counts ++ [1]⟩
  else ⟨s.row + 1, s.index, s.counts⟩

/-- `Unique` on a fresh table. -/
def unique {K : Type} [DecidableEq K] (hash : K → Nat) (size : Nat) (rows : List (K × Bool)) :
    Except Fault UniqueOut :=
  (tableLoop (probing hash) uniquePlan uniqueNext (fresh K Nat size) ⟨0, [], []⟩ rows).map Prod.snd

/-- What `MultiKeyRolling` keeps and writes. -/
structure RollOut where
  uniques : Nat
  index : List Nat
  running : List Nat
  deriving DecidableEq, Repr

/-- `MultiKeyRolling`, `src/HashLinear.cpp:3483-3565`: the table holds the number of each key and how often
it occurred.  Keys are at most 16 bytes wide. -/
def rollPlan {K : Type} (s : RollOut) (k : K) : Op K (Nat × Nat) := .put k (s.uniques, 1) (fun v => (v.1, v.2 + 1))

/-- One row of `MultiKeyRolling`. -/
def rollNext {K : Type} (s : RollOut) (_ : K) (old : Option (Nat × Nat)) : RollOut :=
  match old with
  | some v => ⟨s.uniques, s.index ++ [v.1], s.running ++ [v.2 + 1]⟩
  | none => ⟨s.uniques + 1, s.index ++ [s.uniques], s.running ++ [1]⟩

/-- One call of `MultiKeyRollingStep2`, `src/HashLinear.cpp:5306-5331`: the table and the number of uniques
are kept from the previous call, the two outputs are new. -/
def rollStep {K : Type} [DecidableEq K] (hash : K → Nat) (st : Slots K (Nat × Nat) × Nat) (keys : List K) :
    Except Fault ((Slots K (Nat × Nat) × Nat) × (List Nat × List Nat)) :=
  (tableLoop (probing hash) rollPlan rollNext st.1 ⟨st.2, [], []⟩ keys).map
    fun r => ((r.1, r.2.uniques), (r.2.index, r.2.running))

/-- The calls for a list of batches; the outputs of all calls one after the other. -/
def rollAll {K : Type} [DecidableEq K] (hash : K → Nat) :
    (Slots K (Nat × Nat) × Nat) → List (List K) → Except Fault (List Nat × List Nat)
  | _, [] => .ok ([], [])
  | st, b :: bs =>
    match rollStep hash st b with
    | .error e => .error e
    | .ok (st', o) => (rollAll hash st' bs).map fun r => (o.1 ++ r.1, o.2 ++ r.2)

/-- What `GroupBySuper` keeps and writes.  `none` is `GB_INVALID_INDEX` (a negative number, so no row). -/
structure SuperOut where
  out : GroupOut
  next : List (Option Nat)
  counts : List Nat
  invalidLast : Option Nat
  deriving DecidableEq, Repr

/-- `GroupBySuper`, `src/HashLinear.cpp:3106-3318`: the table holds the last row of each key and the position
of the key among the uniques. -/
def superPlan {K : Type} (s : SuperOut) (r : K × Bool) : Op K (Nat × Nat) :=
  if r.2 then .put r.1 (s.out.bins.length, s.out.firsts.length) (fun v => (s.out.bins.length, v.2)) else .skip

/-- One row of `GroupBySuper`, 3148-3208 and 3216-3306. -/
def superNext {K : Type} (s : SuperOut) (r : K × Bool) (old : Option (Nat × Nat)) : SuperOut :=
  if r.2 then
    match old with
    | some v =>
      ⟨⟨s.out.bins ++ [s.out.bins.getD v.1 0], s.out.firsts⟩,
        (s.next ++ [none]).set v.1 (some s.out.bins.length), s.counts.modify v.2 (· + 1), s.invalidLast⟩
    | none =>
      ⟨⟨s.out.bins ++ [s.out.firsts.length + 1], s.out.firsts ++ [s.out.bins.length]⟩, s.next ++ [none],
        s.counts ++ [1], s.invalidLast⟩
  else
    ⟨⟨s.out.bins ++ [0], s.out.firsts⟩,
      match s.invalidLast with
      | some l => (s.next ++ [none]).set l (some s.out.bins.length)
      | none => s.next ++ [none],
      s.counts, some s.out.bins.length⟩

/-- `GroupBySuper` on a fresh table. -/
def groupSuper {K : Type} [DecidableEq K] (hash : K → Nat) (size : Nat) (rows : List (K × Bool)) :
    Except Fault SuperOut :=
  (tableLoop (probing hash) superPlan superNext (fresh K (Nat × Nat) size) ⟨.init, [], [], none⟩ rows).map
    Prod.snd

/-- What `MakeHashLocationMultiKey` writes per row. -/
structure LinkOut where
  uniques : Nat
  index : List Nat
  running : List Nat
  prev : List (Option Nat)
  next : List (Option Nat)
  first : List Nat
  deriving DecidableEq, Repr

/-- `MakeHashLocationMultiKey`, `src/HashLinear.cpp:3570-3662`: the table holds the last row of each key. -/
def linkPlan {K : Type} (s : LinkOut) (k : K) : Op K Nat :=
  .put k s.index.length (fun _ => s.index.length)

/-- One row of it. -/
def linkNext {K : Type} (s : LinkOut) (_ : K) (old : Option Nat) : LinkOut :=
  match old with
  | some l =>
    ⟨s.uniques, s.index ++ [s.index.getD l 0], s.running ++ [s.running.getD l 0 + 1], s.prev ++ [some l],
      (s.next ++ [none]).set l (some s.index.length), s.first ++ [s.first.getD l 0]⟩
  | none =>
    ⟨s.uniques + 1, s.index ++ [s.uniques + 1], s.running ++ [1], s.prev ++ [none], s.next ++ [none],
      s.first ++ [s.index.length]⟩

/-- `MakeHashLocationMultiKey` on a fresh table. -/
def makeLinks {K : Type} [DecidableEq K] (hash : K → Nat) (size : Nat) (keys : List K) :
    Except Fault LinkOut :=
  (tableLoop (probing hash) linkPlan linkNext (fresh K Nat size) ⟨0, [], [], [], [], []⟩ keys).map Prod.snd

/-- The inner loop of the second pass of `MultiKeyHash`, `src/MultiKey.cpp:1561-1569`: follow the previous
links and write bucket size and last row (kept together here).  `fuel` bounds the steps; running out
means the C++ loop would not end. -/
def walkBack {V : Type} (prev : List (Option Nat)) (v : V) : Nat → Nat → List V → Option (List V)
  | 0, _, _ => none
  | fuel + 1, j, a =>
    match prev[j]? with
    | none => none
    | some none => some a
    | some (some j') => walkBack prev v fuel j' (a.set j' v)

/-- The outer loop, from the last row down to row 0, `src/MultiKey.cpp:1543-1572`; `n` rows are left. -/
def bucketPass (running : List Nat) (prev next : List (Option Nat)) :
    Nat → List (Nat × Nat) → Option (List (Nat × Nat))
  | 0, a => some a
  | i + 1, a =>
    match next[i]? with
    | none => none
    | some (some _) => bucketPass running prev next i a
    | some none =>
      let v := (running.getD i 0, i)
      match walkBack prev v (i + 1) i (a.set i v) with
      | none => none
      | some a' => bucketPass running prev next i a'

/-- The rows of partition `i`: from the previous cutoff (0 for the first) up to its own,
`src/HashLinear.cpp:5990-6005`. -/
def partOf {R : Type} (rows : List R) (cuts : List Nat) (i : Nat) : List R :=
  (rows.take (cuts.getD i 0)).drop (if i = 0 then 0 else cuts.getD (i - 1) 0)

/-- The parallel phase of the partitioned `GroupByImpl`, `src/HashLinear.cpp:5984-6030` and 6053: work item
`i` groups partition `i` with its own table (of `size i` slots) and fills `pPartitions[i]`.  `calls`
is the order in which the items finish.  The bins are kept with the partition here; in C++ they are written to
the partition's range of the index array. -/
def partRun {K : Type} [DecidableEq K] (hash : Nat → K → Nat) (size : Nat → Nat) (rows : List (K × Bool))
    (cuts calls : List Nat) : List (Option (Except Fault GroupOut)) :=
  calls.foldl (fun a i => a.set i (some (groupBy (hash i) (size i) (partOf rows cuts i))))
    (List.replicate cuts.length none)

/-- Collecting the results, `src/HashLinear.cpp:6058-6090`: bins side by side, first rows appended as they are
(relative to their partition), and the running totals of the numbers of groups.  `none`: a slot was
not filled, or a partition failed. -/
def collectParts : Nat → List (Option (Except Fault GroupOut)) → Option (List Nat × List Nat × List Nat)
  | _, [] => some ([], [], [])
  | total, some (.ok o) :: rest =>
    (collectParts (total + o.firsts.length) rest).map fun r =>
      (o.bins ++ r.1, o.firsts ++ r.2.1, (total + o.firsts.length) :: r.2.2)
  | _, _ :: _ => none

end Riptide.Hash
