import Verif.Pack.Call
import Verif.Take.Model
import Verif.Combine.Model
/-!
# The calls `ReverseShuffle`, `ReIndexGroups`, `CombineFilter` and `MakeiFirst` on arrays, `src/Merge.cpp` and `src/Convert.cpp`

The items are read from the memory of the arrays one after the other from the first one on; an array whose first items, counted that way, do not all
lie in its memory is taken as undefined even if the call would not look at them. Left out: numpy running out of memory, arguments which are no arrays
or no integers (`PyArg_ParseTuple` refuses them), and the alignment of the items.
-/
namespace Riptide.Keys
open Riptide.Nums Riptide.Work
open Riptide.Pack.Call (items keyType sizeType)

/-- What comes of a call. `silent`: `NULL` is returned and no exception is set, `src/Convert.cpp:2524`. -/
inductive Result (α : Type) where
  | typeRefused
  | lengths
  | filterType
  | tooMany
  | silent
  | undefined
  | ok (answer : α)
  deriving DecidableEq, Repr

/-- `none` of a kernel is undefined behaviour. -/
def Result.of {α : Type} : Option α → Result α
  | some x => .ok x
  | none => .undefined

/-- `ReverseShuffle`, `src/Merge.cpp:1932-1983`. The answer has the type and the shape of the keys; its items are listed in the order of memory. -/
def reverse (a : Arr) (m : Mem) (par : Option (List Nat)) : Result (List (Option Int)) :=
  if a.type ≥ 10 ∨ a.type % 2 = 0 then .typeRefused
  else match sizeType a.lay.item with
    | none => .typeRefused
    | some t => .of ((items t m a.lay.len).bind fun l => runWrites a.lay.len (Take.reverseShuffle t.bits l par))

/-- The four arrays of `ReIndexGroups`, `src/Merge.cpp:1827-1866`: keys, unique keys, and the cutoffs of both. -/
structure Groups where
  ik : Arr
  im : Mem
  uk : Arr
  um : Mem
  uc : Arr
  ucm : Mem
  ic : Arr
  icm : Mem

/-- `ReIndexGroups`, `src/Merge.cpp:1827-1890`: of the types only the sizes of the items are looked at. The answer is the array of keys itself, whose
items are listed in the order of memory; `calls` are the partitions in the order in which they are completed. -/
def reindex (g : Groups) (calls : List Nat) : Result (List Int) :=
  if g.uc.lay.item ≠ 8 ∨ g.ic.lay.item ≠ 8 ∨ g.uk.lay.item ≠ 4 then .typeRefused
  else match sizeType g.ik.lay.item with
    | none => .typeRefused
    | some t => .of ((items t g.im g.ik.lay.len).bind fun ikey => (items .i32 g.um g.uk.lay.len).bind fun uikey =>
        (items .i64 g.ucm g.uc.lay.len).bind fun ucut => (items .i64 g.icm g.ic.lay.len).bind fun icut =>
          Take.reindexGroups t.bits uikey ucut icut ikey calls)

/-- `CombineFilter`, `src/Convert.cpp:1433-1530`. The answer is an array in C order of the shape of the keys. -/
def filterKeys (a : Arr) (m : Mem) (f : Arr) (fm : Mem) (par : Option (List Nat)) : Result (List (Option Int)) :=
  if a.lay.len ≠ f.lay.len then .lengths
  else if f.type ≠ 0 then .filterType
  else match keyType a.type with
    | none => .typeRefused
    | some t => .of ((items t m a.lay.len).bind fun idx => (items .i8 fm a.lay.len).bind fun filt => Combine.combineFilter t idx filt par)

/-- The filter of `MakeiFirst`, `src/Convert.cpp:2443-2457`: anything which is no array counts as none. -/
def keptRows (n : Nat) : Option (Arr × Mem) → Option (List Bool)
  | none => some (List.replicate n true)
  | some (_, fm) => (items .i8 fm n).map fun l => l.map fun x => decide (x ≠ 0)

/-- `MakeiFirst`, `src/Convert.cpp:2421-2525`. -/
def first (a : Arr) (m : Mem) (max : Int) (filter : Option (Arr × Mem)) (last : Int) : Result (List Int) :=
  if (filter.map fun p => decide (p.1.lay.len ≠ a.lay.len)) = some true then .lengths
  else if (filter.map fun p => decide (p.1.type ≠ 0)) = some true then .filterType
  else if ¬ IT.i64.InRange (max + 1) then .undefined
  else if max + 1 < 0 ∨ max + 1 > 20000000000 then .tooMany
  else match keyType a.type with
    | none => .silent
    | some t => .of ((items t m a.lay.len).bind fun keys => (keptRows a.lay.len filter).bind fun kept =>
        Combine.makeiFirst (decide (last ≠ 0)) (max + 1).toNat (keys.zip kept))

end Riptide.Keys
