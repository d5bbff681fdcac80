import Verif.LexGroup.Model
import Verif.Quick.Call
/-!
# The call `GroupFromLexSort` on arrays, `src/Sort.cpp:3927-4381`

The kernels are those of `Verif/LexGroup/Model.lean`. The items of the arrays are read one after the other from `PyArray_BYTES` on, whatever the
strides are. Simplification: all values are asked for, also those which no row points to, and the whole of the index.
-/
namespace Riptide.LexGroup.Call
open Riptide.Nums Riptide.Pack.Call Riptide.Quick.Call

/-- The keywords, `src/Sort.cpp:3352-3378`, `3639-3681`: `cutoffs` and `filter` when they are arrays (everything else is passed over), `base_index` when it
is an `int`. -/
structure Extra where
  cuts : Option (Arr × Mem)
  filter : Option Arr
  base : Option Int

/-- Whether memory is granted: for the three arrays whose allocation is checked, `src/Sort.cpp:3962`, and for the later ones. -/
structure Room where
  arrays : Bool
  later : Bool

/-- What comes of the call. `spoiled`: a result is returned while an exception is set. `parts`: also the items of the index afterwards. -/
inductive Outcome where
  | lengths
  | typeRefused
  | cutLast
  | cutType
  | filterLength
  | memory
  | undefined
  | spoiled
  | groups (o : GOut)
  | parts (o : POut) (index : List Int)
  deriving DecidableEq

/-- `GetBaseIndex`, `src/Sort.cpp:3663-3681`: "only zero or one allowed". -/
def baseOf : Option Int → Nat
  | some 0 => 0
  | _ => 1

/-- `PyLong_AsLong` raises, `src/Sort.cpp:3673`, which is not looked at. -/
def raised : Option Int → Bool
  | some v => decide (¬ IT.i64.InRange v)
  | none => false

/-- The types of the index, `src/Sort.cpp:4368-4380`. -/
def indexType : Nat → Option IT
  | 5 => some .i32
  | 7 | 9 => some .i64
  | _ => none

/-- The tests of the cutoffs, `src/Sort.cpp:3938-3945`: without items the number before the first one is read. -/
def cutsBad (n : Nat) : Option (Arr × Mem) → Option Outcome
  | none => none
  | some (a, m) =>
    if a.type = 7 ∨ a.type = 9 then
      if a.lay.len = 0 then some .undefined
      else match item .i64 m (a.lay.len - 1) with
        | none => some .undefined
        | some v => if v ≠ (n : Int) then some .cutLast else none
    else some .cutType

/-- The test of the filter, `src/Sort.cpp:3946`: arrays which are not of booleans are passed over, `3651-3656`. -/
def filterBad (n : Nat) : Option Arr → Bool
  | some f => decide (f.type = 0 ∧ f.lay.len ≠ n)
  | none => false

/-- The cutoffs, `src/Sort.cpp:3368`. -/
def cutItems : Option (Arr × Mem) → Option (Option (List Int))
  | none => some none
  | some (a, m) => (items .i64 m a.lay.len).map some

/-- What is known before the grouping. -/
structure Ready where
  type : IT
  index : List Int
  vals : List (List Nat)
  cuts : Option (List Int)

/-- Everything up to the grouping, `src/Sort.cpp:4350-4380` and `3930-3983`. -/
def prepare (room : Room) (idx : Arr) (im : Mem) (vals : Arr) (vm : Mem) (ex : Extra) : Except Outcome Ready :=
  if vals.lay.len < idx.lay.len then .error .lengths
  else match indexType idx.type with
    | none => .error .typeRefused
    | some t => match cutsBad idx.lay.len ex.cuts with
      | some r => .error r
      | none =>
        if filterBad idx.lay.len ex.filter then .error .filterLength
        else if room.arrays = false then .error .memory
        else match items t im idx.lay.len, rows 1 vals.lay.item vals.lay.item vals.lay.len vm, cutItems ex.cuts with
          | some i, some v, some c => .ok ⟨t, i, v, c⟩
          | _, _, _ => .error .undefined

/-- The rows which the loop visits when their number is cut to the type of the index, `src/Sort.cpp:3886-3892`, `3694`, `3764`, `3796`: the first one also
when the number is negative. -/
def seen (t : IT) (l : List Int) : List Int :=
  if t.wrap (l.length : Int) = 0 then [] else l.take (max 1 (t.wrap (l.length : Int)).toNat)

/-- Row numbers; a negative one is counted as undefined (with cutoffs it may still lie in the arrays). -/
def nats (l : List Int) : Option (List Nat) := l.mapM fun (x : Int) => if 0 ≤ x then some x.toNat else none

/-- The result, unless an exception is set. -/
def given (ex : Extra) (r : Outcome) : Outcome := if raised ex.base then .spoiled else r

/-- Without cutoffs, `src/Sort.cpp:4290-4320`: the later allocations are not checked, `4300-4310`. -/
def whole (room : Room) (ex : Extra) (width : Nat) (q : Ready) : Outcome :=
  match (nats (seen q.type q.index)).bind (group (differ width) (cslotOf width (baseOf ex.base)) (baseOf ex.base) q.vals) with
  | none => .undefined
  | some o => if room.later = false then .undefined else given ex (.groups o)

/-- Cutoffs as row numbers. Simplification: cutoffs which are negative or fall are counted as undefined, and so are more rows than the type of the index
counts. -/
def rising (t : IT) (n : Nat) (cuts : List Int) : Option (List Nat) :=
  if t.InRange n then (nats cuts).bind fun l => if l.Pairwise (· ≤ ·) then some l else none else none

/-- First row of the partition in which a row is, `src/Sort.cpp:4144-4155`. -/
def startOf (cuts : List Nat) (p : Nat) : Nat := ((cuts.filter fun c => decide (c ≤ p)).getLast?).getD 0

/-- The index afterwards, `pIndex[i] += partStart`, `src/Sort.cpp:4177-4187` and `4234-4244`: it is the caller's array. -/
def indexAfter (t : IT) (cuts : List Nat) (l : List Int) : List Int := l.mapIdx fun p x => t.wrap (x + (startOf cuts p : Int))

/-- What is returned with cutoffs, `src/Sort.cpp:3985-4288`; `r` is the result of the kernel. -/
def partsOut (room : Room) (ex : Extra) (t : IT) (cuts : List Nat) (index : List Int) (r : Option POut) : Outcome :=
  match r with
  | none => .undefined
  | some o => if room.later = false then .undefined else given ex (.parts o (indexAfter t cuts index))

/-- `GroupFromLexSort(idx, vals, cutoffs=, filter=, base_index=)`, `src/Sort.cpp:4340-4381`, with any order of the writes of the threads. With cutoffs the
base is passed over, `4064`. -/
inductive GroupCall (room : Room) (idx : Arr) (im : Mem) (vals : Arr) (vm : Mem) (ex : Extra) : Outcome → Prop
  | early (r : Outcome) (h : prepare room idx im vals vm ex = .error r) : GroupCall room idx im vals vm ex r
  | direct (q : Ready) (h : prepare room idx im vals vm ex = .ok q) (hc : q.cuts = none) :
      GroupCall room idx im vals vm ex (whole room ex vals.lay.item q)
  | unordered (q : Ready) (l : List Int) (h : prepare room idx im vals vm ex = .ok q) (hc : q.cuts = some l)
      (hn : nats q.index = none ∨ rising q.type q.index.length l = none) : GroupCall room idx im vals vm ex .undefined
  | split (q : Ready) (l : List Int) (rows cuts : List Nat) (r : Option POut) (h : prepare room idx im vals vm ex = .ok q) (hc : q.cuts = some l)
      (hi : nats q.index = some rows) (hl : rising q.type q.index.length l = some cuts)
      (hr : GroupParts (differ vals.lay.item) (cslotOf vals.lay.item 0) q.vals rows cuts r) :
      GroupCall room idx im vals vm ex (partsOut room ex q.type cuts q.index r)

end Riptide.LexGroup.Call
