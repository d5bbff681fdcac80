import Verif.Hash.Group
import Verif.Hash.MultiKey
/-! # Model of the calls that group rows of several arrays: `MultiKeyGroupBy32`, `MultiKeyGroupBy32Super`, `MultiKeyUnique32`, `MultiKeyHash`, `MultiKeyRolling`

The keys are passed as a list of arrays (`MultiKeyRolling`: a tuple or a list).  Failed allocations are left out.  In every function `none` means undefined behaviour
or the end of the process. -/
namespace Riptide.Hash
open Riptide.Work

/-- What comes back: an exception (and how many of the new arrays are never freed), `None`, or a value. -/
inductive Reply (α : Type)
  | raised (lost : Nat)
  | pyNone
  | value (a : α)
  deriving DecidableEq

/-- The filter array (`CMultiKeyPrepare`, `src/MultiKey.cpp:376-400`): whether its items are booleans, how many they are, the distance between them in bytes, and the
memory from its first item on.  Negative distances are left out. -/
structure FilterArg where
  isBool : Bool
  len : Nat
  step : Nat
  mem : List UInt8
  deriving DecidableEq

/-- The check of the filter, `src/MultiKey.cpp:430-443`, and the flags as the loops read them, byte after byte whatever the distance is (`pBoolFilter[i]`,
`src/HashLinear.cpp:2730`, 2759, 2822-2928, 3035, 3222, 3363).  `some none`: refused. -/
def filterFlags (n : Nat) : Option FilterArg → Option (Option (List Bool))
  | none => some (some (List.replicate n true))
  | some f =>
    if f.isBool && decide (f.len = n) then ((List.range n).mapM fun i => f.mem[i]?).map fun bs => some (bs.map fun b => decide (b ≠ 0))
    else some none

/-- Whether `PyLong_AsSize_t` raises, `src/MultiKey.cpp:370`; the exception is not looked at, and spoils the result in the end. -/
def hintRaises (v : Int) : Bool := decide (v < 0) || decide (2 ^ 64 ≤ v)

/-- The hint that is kept, `src/MultiKey.cpp:370`: the value as `int64_t`, -1 after an exception. -/
def hintOf (v : Int) : Int := if hintRaises v then -1 else IT.i64.wrap v

/-- A hint of 0 stands for the number of rows, `src/HashLinear.cpp:5151-5154`, 3115-3118, 3337-3340, 3494-3501, 3580-3583. -/
def wanted (hint : Int) (rows : Nat) : Int := if hint = 0 then rows else hint

/-- The number of slots for a number of entries and a hash mode as it was passed: 1 is `HASH_MODE_PRIME`, 2 is `HASH_MODE_MASK`, and any other number is treated as mask
by `GetHashSize` but not by `AllocMemory`, `src/HashLinear.cpp:379-411`, 468-503.  `none`: no slots, or the size overflows. -/
def tableSize (mode n : Int) : Option Nat :=
  if mode = 2 then allocSize .mask n.toNat false
  else if mode = 1 then (allocSize .prime n.toNat false).bind fun s => if s = 0 then none else some s
  else hashSize .mask n.toNat

/-- `GroupByInternal`, `src/HashLinear.cpp:5142-5228`: the loop is chosen by the width of a row.  1 and 2 byte keys ask for 128 and 32768 entries.  The floats have the
loop of the integers of their width. -/
def groupRows (H : List UInt8 → Nat) (mode hint : Int) (width : Nat) (rows : List (List UInt8 × Bool)) : Option (Except Fault GroupOut) :=
  if width = 1 then (tableSize mode 128).map fun s => groupBySmall s (rows.map fun r => (leWord r.1, r.2))
  else if width = 2 then (tableSize mode 32768).map fun s => groupBySmall s (rows.map fun r => (leWord r.1, r.2))
  else if width = 4 ∨ width = 8 then (tableSize mode (wanted hint rows.length)).map fun s => groupBy (mkHash H s) s rows
  else (tableSize mode (wanted hint rows.length)).map fun s => groupByMk (mkHash H s) s rows

/-- The `cutoffs` keyword (`GetCutOffs`, `src/Sort.cpp:3352-3377`): whether its items are `int64`, how many they are, the distance between them in items, and the
memory.  Anything that is not an array is ignored. -/
structure CutArg where
  isI64 : Bool
  len : Nat
  step : Nat
  mem : List Int
  deriving DecidableEq

/-- The numbers as they are stored in an array of type `t` (`(U)i` and the counters of type `U` in the loops of `src/HashLinear.cpp:2575-3662`). -/
def asType (t : IT) (l : List Nat) : List Int := l.map fun (x : Nat) => t.wrap (x : Int)

/-- What the group-by call returns: the type of the numbers, the bin of every row, the first rows, and for partitions the running totals of the uniques; the last is the
number of uniques. -/
structure GroupResult where
  type : IT
  bins : List Int
  firsts : List Int
  cuts : Option (List Int)
  uniques : Int
  deriving DecidableEq

/-- The type of the numbers, `src/MultiKey.cpp:1009-1015`. -/
def groupIndexType (rows : Nat) : IT := if 2100000000 < rows then .i64 else .i32

/-- Rows, width, and the rows with their flags (`CMultiKeyPrepare`).  `some none`: an exception is set and there is no key. -/
def keyRows (arg : KeyArg) (filter : Option FilterArg) : Option (Option (Nat × Nat × List (List UInt8 × Bool))) :=
  match prepare arg with
  | none => none
  | some none => some none
  | some (some p) =>
    match filterFlags p.rows filter with
    | none => none
    | some none => some none
    | some (some flags) => p.keys.map fun ks => some (p.rows, p.width, ks.zip flags)

/-- `GroupByImpl` with partitions, `src/HashLinear.cpp:5984-6030, 6053`: as `partRun`, with the loop chosen by the width. -/
def partRows (H : List UInt8 → Nat) (mode hint : Int) (width : Nat) (rows : List (List UInt8 × Bool)) (cuts calls : List Nat) :
    List (Option (Except Fault GroupOut)) :=
  calls.foldl (fun a i => a.set i (groupRows H mode hint width (partOf rows cuts i))) (List.replicate cuts.length none)

/-- Cutoffs that can be used: every one at least as large as the one before, the first at least 0.  With others a partition would reach outside of the arrays. -/
def risingFrom : Int → List Int → Bool
  | _, [] => true
  | a, b :: l => decide (a ≤ b) && risingFrom b l

/-- The call without partitions, `src/MultiKey.cpp:1036-1090` and `src/HashLinear.cpp:6105-6122`.  The exception of a full table is caught: the index array is never
freed. -/
def plainGroups (H : List UInt8 → Nat) (hint mode : Int) (n width : Nat) (rows : List (List UInt8 × Bool)) : Option (Reply GroupResult) :=
  match groupRows H mode (hintOf hint) width rows with
  | none => none
  | some (.error .oob) => none
  | some (.error .full) => some (.raised 1)
  | some (.ok o) =>
    if hintRaises hint then some (.raised 0)
    else
      some (.value ⟨groupIndexType n, asType (groupIndexType n) o.bins, asType (groupIndexType n) o.firsts, none, o.firsts.length⟩)

/-- The call with partitions, `src/MultiKey.cpp:1017-1034` and `src/HashLinear.cpp:5944-6103`.  The memory is read item after item.  A partition that fails ends the
process (the exception is thrown in a worker, or counted as failed here when the calling thread throws it). -/
def partGroups (H : List UInt8 → Nat) (hint mode : Int) (n width : Nat) (rows : List (List UInt8 × Bool)) (c : CutArg) (calls : List Nat) :
    Option (Reply GroupResult) :=
  if !c.isI64 then some (.raised 0)
  else if c.len = 0 then none
  else
    match (List.range c.len).mapM fun i => c.mem[i]? with
    | none => none
    | some cuts =>
      if cuts.getLast? ≠ some (n : Int) then some (.raised 0)
      else if !risingFrom 0 cuts then none
      else
        match collectParts 0 (partRows H mode (hintOf hint) width rows (cuts.map Int.toNat) calls) with
        | none => none
        | some (bins, firsts, totals) =>
          if hintRaises hint then some (.raised 0)
          else
            some (.value ⟨groupIndexType n, asType (groupIndexType n) bins, asType (groupIndexType n) firsts,
              some (totals.map fun (t : Nat) => (t : Int)), firsts.length⟩)

/-- `MultiKeyGroupBy32`, `src/MultiKey.cpp:970-1104`, with a list of keys, a hint, a filter or `None`, a hash mode and the keyword `cutoffs`.  `calls` is the order in
which the partitions are done. -/
def multiKeyGroupBy (H : List UInt8 → Nat) (keys : List KeyCol) (hint : Int) (filter : Option FilterArg) (mode : Int) (cuts : Option CutArg)
    (calls : List Nat) : Option (Reply GroupResult) :=
  match keyRows (.list keys) filter with
  | none => none
  | some none => some (.raised 0)
  | some (some (n, width, rows)) =>
    match cuts with
    | none => plainGroups H hint mode n width rows
    | some c => partGroups H hint mode n width rows c calls

/-- What `MultiKeyGroupBy32Super` returns: bin and next row of every row, first row and number of rows of every bin. -/
structure SuperResult where
  bins : List Int
  next : List Int
  firsts : List Int
  counts : List Int
  deriving DecidableEq

/-- `GB_INVALID_INDEX`, `src/RipTide.h:248`. -/
def noRow (l : Option Nat) : Int :=
  match l with
  | none => -1
  | some i => IT.i32.wrap i

/-- `MultiKeyGroupBy32Super`, `src/MultiKey.cpp:1123-1254`, and `GroupBySuper`, `src/HashLinear.cpp:3106-3318`: always with the loop for any width, and 32-bit numbers.
The exception of a full table is thrown while the lock of the interpreter is given up, and the error is set without it: `none`.  Too many rows set an exception but
are grouped nevertheless; from 2³¹ on the loop counter overflows. -/
def multiKeySuper (H : List UInt8 → Nat) (keys : List KeyCol) (hint : Int) (filter : Option FilterArg) (mode : Int) : Option (Reply SuperResult) :=
  match keyRows (.list keys) filter with
  | none => none
  | some none => some (.raised 0)
  | some (some (n, _, rows)) =>
    if 2 ^ 31 ≤ n then none
    else
      match tableSize mode (wanted (hintOf hint) n) with
      | none => none
      | some s =>
        match groupSuper (mkHash H s) s rows with
        | .error _ => none
        | .ok o =>
          if hintRaises hint || decide (2100000000 < n) then some (.raised 0)
          else
            some (.value ⟨asType IT.i32 o.out.bins, o.next.map noRow, asType IT.i32 o.out.firsts,
              asType IT.i32 o.counts⟩)

/-- The type of the numbers of `MultiKeyUnique32`, `src/MultiKey.cpp:1288, 1344`. -/
def uniqueIndexType (rows : Nat) : IT := if rows < 2100000000 then .i32 else .i64

/-- `MultiKeyUnique32`, `src/MultiKey.cpp:1266-1403`, and `Unique`, `src/HashLinear.cpp:3325-3478`: first row and number of rows of every distinct key.  The exception of
a full table is caught and `None` is returned, which is an error only if an exception was set before. -/
def multiKeyUnique (H : List UInt8 → Nat) (keys : List KeyCol) (hint : Int) (filter : Option FilterArg) : Option (Reply (IT × List Int × List Int)) :=
  match keyRows (.list keys) filter with
  | none => none
  | some none => some (.raised 0)
  | some (some (n, _, rows)) =>
    match tableSize 2 (wanted (hintOf hint) n) with
    | none => none
    | some s =>
      match unique (mkHash H s) s rows with
      | .error .oob => none
      | .error .full => some (if hintRaises hint then .raised 0 else .pyNone)
      | .ok o =>
        if hintRaises hint then some (.raised 0)
        else
          some (.value (uniqueIndexType n, asType (uniqueIndexType n) o.index, asType (uniqueIndexType n) o.counts))

/-- What `MultiKeyHash` returns. -/
structure HashResult where
  index : List Int
  running : List Int
  bucket : List Int
  prev : List Int
  next : List Int
  first : List Int
  last : List Int
  deriving DecidableEq

/-- `MultiKeyHash`, `src/MultiKey.cpp:1496-1588`, and `MakeHashLocationMultiKey`, `src/HashLinear.cpp:3570-3662`: the filter is checked but not used.  Nobody catches the
exception of a full table: `none`.  `junk`: what the arrays of bucket sizes and last rows held.  The assertion at 1541 is left out; from 2³¹ rows on the numbers
overflow. -/
def multiKeyHash (H : List UInt8 → Nat) (keys : List KeyCol) (hint : Int) (filter : Option FilterArg) (junk : List (Nat × Nat)) :
    Option (Reply HashResult) :=
  match keyRows (.list keys) filter with
  | none => none
  | some none => some (.raised 0)
  | some (some (n, _, rows)) =>
    if 2 ^ 31 ≤ n then none
    else
      match tableSize 2 (wanted (hintOf hint) n) with
      | none => none
      | some s =>
        match makeLinks (mkHash H s) s (rows.map Prod.fst) with
        | .error _ => none
        | .ok o =>
          match bucketPass o.running o.prev o.next n junk with
          | none => none
          | some a =>
            if hintRaises hint then some (.raised 0)
            else
              some (.value ⟨asType IT.i32 o.index, asType IT.i32 o.running, asType IT.i32 (a.map Prod.fst), o.prev.map noRow,
                o.next.map noRow, asType IT.i32 o.first, asType IT.i32 (a.map Prod.snd)⟩)

/-- The object of `MultiKeyRolling` that is kept between calls (`CHashLinear`): the table, if memory was asked for, and the number of uniques. -/
structure RollObj where
  table : Option (Slots (List UInt8) (Nat × Nat))
  uniques : Nat
  deriving DecidableEq

/-- What one call of `MultiKeyRolling` returns: number and running count of every row (`none`: whatever the memory held), and the object. -/
structure RollResult where
  index : Option (List Int)
  running : Option (List Int)
  obj : RollObj
  deriving DecidableEq

/-- `CHashLinear::MultiKeyRolling`, `src/HashLinear.cpp:3483-3565`, on an object.  The exception of a full table ends the process (`none`).  The keys of all calls are taken
to have the same width: the 16 bytes of a slot are not filled up. -/
def rollRows (H : List UInt8 → Nat) (obj : RollObj) (hint : Int) (width : Nat) (keys : List (List UInt8)) : Option RollResult :=
  if 16 < width then some ⟨none, none, obj⟩
  else
    let start : Option (Option (Slots (List UInt8) (Nat × Nat)) × Nat) :=
      if 0 ≤ hint then (tableSize 2 (wanted hint keys.length)).map fun s => (some (fresh _ _ s), 0) else some (obj.table, obj.uniques)
    match start with
    | none => none
    | some (none, u) => some ⟨none, none, ⟨none, u⟩⟩
    | some (some t, u) =>
      match rollStep (mkHash H t.length) (t, u) keys with
      | .error _ => none
      | .ok ((t', u'), (index, running)) => some ⟨some (asType IT.i64 index), some (asType IT.i64 running), ⟨some t', u'⟩⟩

/-- `MultiKeyRolling`, `src/MultiKey.cpp:1421-1490`, with `MultiKeyRollingStep2`, `src/HashLinear.cpp:5306-5331`: the second argument is the hint, the third one (if it is there)
the object of an earlier call.  The address is not checked; only addresses of living objects are considered.  A hint of -1 with an object deletes it (`None`).
A hint that does not fit 64 bits raises an exception and counts as -1. -/
def multiKeyRolling (H : List UInt8 → Nat) (arg : KeyArg) (hint : Int) (obj : Option RollObj) : Option (Reply RollResult) :=
  let raises := decide (hint < -2 ^ 63) || decide (2 ^ 63 ≤ hint)
  let h := if raises then -1 else hint
  if h = -1 ∧ obj.isSome then some (if raises then .raised 0 else .pyNone)
  else
    match keyRows arg none with
    | none => none
    | some none => some (.raised 0)
    | some (some (_, width, rows)) =>
      match rollRows H (obj.getD ⟨none, 0⟩) (if obj.isSome then -1 else h) width (rows.map Prod.fst) with
      | none => none
      | some r => some (if raises then .raised 0 else .value r)

end Riptide.Hash
