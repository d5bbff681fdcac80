import Verif.Quick.InPlace
import Verif.Sort.Check
import Verif.Pack.Call
/-!
# The calls `IsSorted`, `SortInPlace`, `Sort` and `SortInPlaceIndirect` on arrays, `src/Sort.cpp`

The items are read from the memory of the array one after the other from the first one on. Left out: first arguments which are no arrays and modes which
are no integers (`PyArg_ParseTuple` refuses them), `long double`, the alignment of the items, arrays from 2^31 rows on in the loops over `int` (lines 2973,
2978 and 2996), and the flag which says that an array must not be written, at which none of the calls looks.
-/
namespace Riptide.Quick.Call
open Riptide.Nums Riptide.Sort
open Riptide.Pack.Call (items)

/-! ## Reading -/

/-- How the items of a type are sorted, `src/Sort.cpp:2866-2910` and `3243-3292`; `u` is the number of bytes of a character. -/
inductive Kind where
  | ints (t : IT)
  | floats (f : FT)
  | chars (u : Nat)
  | raw
  deriving DecidableEq

/-- By numpy's number, `src/Sort.cpp:3243-3292`: a boolean counts as `int8_t`. -/
def kindOf : Nat → Option Kind
  | 0 | 1 => some (.ints .i8)
  | 2 => some (.ints .u8)
  | 3 => some (.ints .i16)
  | 4 => some (.ints .u16)
  | 5 => some (.ints .i32)
  | 6 => some (.ints .u32)
  | 7 | 9 => some (.ints .i64)
  | 8 | 10 => some (.ints .u64)
  | 11 => some (.floats .f32)
  | 12 => some (.floats .f64)
  | 18 => some (.chars 1)
  | 19 => some (.chars 4)
  | 20 => some .raw
  | _ => none

/-- The bytes of a float. -/
def floatBytes (f : FT) : Nat := if f = .f32 then 4 else 8

/-- `k` units of `u` bytes one after the other from `o` on. -/
def units (u k : Nat) (m : Mem) (o : Int) : Option (List Nat) := (List.range k).mapM fun (j : Nat) => load m (o + ((u * j : Nat) : Int)) u

/-- `n` rows of `k` units each; a row has `item` bytes. -/
def rows (u k item n : Nat) (m : Mem) : Option (List (List Nat)) := (List.range n).mapM fun (i : Nat) => units u k m ((i * item : Nat) : Int)

/-- The column which `IsSorted` checks; `none`: memory which does not belong to the array. -/
def column (item n : Nat) (m : Mem) : Kind → Option Column
  | .ints t => (items t m n).map (.ints true)
  | .floats f => (units (floatBytes f) n m 0).map (.floats f true)
  | .chars u => (rows u (item / u) item n m).map (.strs true)
  | .raw => (rows 1 item item n m).map (.voids true)

/-! ## `IsSorted` -/

/-- What comes of `IsSorted`. -/
inductive Answer where
  | layout
  | typeRefused
  | undefined
  | flag (b : Bool)
  deriving DecidableEq

/-- "arrays must be one dimensional and contiguous", `src/Sort.cpp:3229`. -/
def badLayout (a : Arr) : Bool :=
  match a.lay.dims, a.lay.strides with
  | [d], [s] => decide (d > 1 ∧ s ≠ (a.lay.item : Int))
  | _, _ => true

/-- What is known before the rows are compared. -/
def prepare (a : Arr) (m : Mem) : Except Answer Column :=
  if badLayout a then .error .layout
  else match kindOf a.type with
    | none => .error .typeRefused
    | some k => match column a.lay.item a.lay.len m k with
      | none => .error .undefined
      | some c => .ok c

/-- `IsSorted`, `src/Sort.cpp:3216-3346`, with any race of the callbacks. -/
inductive SortedCall (workers : Nat) (nt : Bool) (a : Arr) (m : Mem) : Answer → Prop
  | early (r : Answer) (h : prepare a m = .error r) : SortedCall workers nt a m r
  | run (c : Column) (b : Bool) (h : prepare a m = .ok c) (hb : IsSorted workers nt c b) : SortedCall workers nt a m (.flag b)

/-! ## `SortInPlace` and `Sort` -/

/-- Booleans are read as `bool`: other bytes than 0 and 1 are undefined, `src/Sort.cpp:2872`. -/
def boolsOk (type : Nat) (l : List Int) : Bool := decide (type ≠ 0) || l.all fun x => decide (x = 0 ∨ x = 1)

/-- What `SortArray` gets, `src/Sort.cpp:2864-2911`: of strings all the bytes; other characters and raw bytes it does not know. -/
def dataOf (a : Arr) (m : Mem) : Option Data :=
  match kindOf a.type with
  | some (.ints t) => (items t m a.lay.len).bind fun l => if boolsOk a.type l then some (.ints l) else none
  | some (.floats f) => (units (floatBytes f) a.lay.len m 0).map (.floats f)
  | some (.chars 1) => (units 1 (a.lay.len * a.lay.item) m 0).map (.bytes a.lay.len)
  | _ => some .other

/-- What comes of the calls: the items in memory afterwards, in the order of memory. -/
inductive Sorted where
  | memory
  | undefined
  | items (d : Data)
  deriving DecidableEq

/-- `none` of a kernel is undefined behaviour. -/
def Sorted.of : Option Data → Sorted
  | some d => .items d
  | none => .undefined

/-- `SortArray` with the scratch array of the mergesort, `src/Sort.cpp:1271-1275` and `1490-1494`: when it is not granted, a line is printed
(`2707`, `2737`) and the items stay as they are. -/
def sortData (scratch : Bool) (mode : Int) (wi : List Int) (wn : List Nat) (d : Data) : Sorted :=
  if mode = 2 ∧ scratch = false then .items d else .of (sortArray mode wi wn d)

/-- `SortInPlace`, `src/Sort.cpp:2917-2940`. -/
def sortInPlace (scratch : Bool) (mode : Int) (wi : List Int) (wn : List Nat) (a : Arr) (m : Mem) : Sorted :=
  match dataOf a m with
  | none => .undefined
  | some d => sortData scratch mode wi wn d

/-- Types whose items have no size of their own: strings, unicode, structures. -/
def flexible (type : Nat) : Bool := decide (type = 18 ∨ type = 19 ∨ type = 20)

/-- `Sort`, `src/Sort.cpp:3031-3066`: the memory of the array is copied into a new one of the same shape in C order. The size of the items is not passed on, so
for flexible types the new array has items of one byte (`src/RipTide.cpp:671-679`) while `itemSize` bytes of each are copied. Strings of no bytes are counted
as undefined as well: their new array is sorted before anything is written to it. -/
def sortCopy (room scratch : Bool) (mode : Int) (wi : List Int) (wn : List Nat) (a : Arr) (m : Mem) : Sorted :=
  if room = false then .memory
  else if flexible a.type = true ∧ a.lay.item ≠ 1 ∧ a.lay.len ≠ 0 then .undefined
  else if (units 1 (a.lay.len * a.lay.item) m 0).isNone then .undefined
  else sortInPlace scratch mode wi wn a m

/-! ## `SortInPlaceIndirect` -/

/-- What comes of it. `unchanged`: a line is printed and the array is returned as it was, `src/Sort.cpp:3019-3025`. -/
inductive Replaced where
  | unchanged
  | undefined
  | items (l : List (Option Int))
  deriving DecidableEq

/-- The types of the two arrays, `src/Sort.cpp:2967`, `2985`, `3002`. -/
def indirectTypes : Nat → Nat → Option (IT × IT)
  | 5, 5 => some (.i32, .i32)
  | 5, 7 => some (.i32, .i64)
  | 7, 7 => some (.i64, .i64)
  | _, _ => none

/-- A position written to the keys, `src/Sort.cpp:2998`: cut to the type of the keys. -/
def stored (t : IT) (l : List (Option Int)) : List (Option Int) := l.map (Option.map t.wrap)

/-- `SortInPlaceIndirect`, `src/Sort.cpp:2951-3026`. The scratch array is used without a look at whether it was granted. -/
def indirect (scratch : Bool) (a : Arr) (m : Mem) (s : Arr) (sm : Mem) : Replaced :=
  match indirectTypes a.type s.type with
  | none => .unchanged
  | some (t, u) =>
    if scratch = false ∧ (a.lay.len ≠ 0 ∨ s.lay.len ≠ 0) then .undefined
    else match items t m a.lay.len, items u sm s.lay.len with
      | some keys, some srt => match sortIndirect srt keys with
        | some out => .items (stored t out)
        | none => .undefined
      | _, _ => .undefined

end Riptide.Quick.Call
