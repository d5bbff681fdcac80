import Verif.Keys.Call
/-!
# The calls `CombineAccum1Filter` and `CombineAccum2Filter` on arrays, `src/Convert.cpp`

The items are read from the memory of the arrays one after the other from the first one on; an array whose first items, counted that way, do not all
lie in its memory is taken as undefined even if the call would not look at them. Left out: first arguments which are no arrays and maxima which are no
integers (`PyArg_ParseTuple` refuses them), and the alignment of the items.
-/
namespace Riptide.Keys
open Riptide.Nums Riptide.Work
open Riptide.Pack.Call (items keyType)

/-- The last argument: `None`, an array, or anything else. -/
inductive FilterArg where
  | pyNone
  | array (f : Arr) (fm : Mem)
  | other

/-- Which requests for memory are granted: the array of the answer, that of the first rows, the shorter one in its place, and the scratch table. -/
structure Room where
  out : Bool
  first : Bool
  shorter : Bool
  table : Bool
  deriving DecidableEq, Repr

/-- What comes of a call. `broken`: a list is returned whose second item is `NULL`, with an exception set, `src/Convert.cpp:2265-2286`. -/
inductive Reply (α : Type) where
  | lengths
  | filterType
  | filterOther
  | tooMany
  | typeRefused
  | memory
  | broken
  | undefined
  | ok (answer : α)
  deriving DecidableEq, Repr

/-- The rows which an array of the filter keeps: all the bytes which are not 0. -/
def keptBytes (fm : Mem) (n : Nat) : Option (List Int) := items .i8 fm n

/-- The kernel of `CombineAccum2Filter` as a reply; the refusals of the kernel's model cannot happen any more. -/
def Reply.of2 : Combine.Out2 → Reply (IT × List (Option Int))
  | .sizes => .lengths
  | .negative => .tooMany
  | .ub => .undefined
  | .ok t out => .ok (t, out)

/-- The filter of `CombineAccum2Filter`, `src/Convert.cpp:1765-1783`: the reply when it is refused. -/
def badFilter {α : Type} (n : Nat) : FilterArg → Option (Reply α)
  | .pyNone => none
  | .other => some .filterOther
  | .array f _ => if n ≠ f.lay.len then some .lengths else if f.type ≠ 0 then some .filterType else none

/-- The bytes of the filter, or none. -/
def filterBytes (n : Nat) : FilterArg → Option (Option (List Int))
  | .array _ fm => (keptBytes fm n).map some
  | _ => some none

/-- `CombineAccum2Filter`, `src/Convert.cpp:1728-2028`. The answer is the type of the new keys and the keys in the order of memory; the array has the
shape of the first one, in Fortran order if that is. -/
def accum2 (room : Bool) (a : Arr) (m : Mem) (b : Arr) (bm : Mem) (max1 max2 : Int) (filter : FilterArg) (par : Option (List Nat)) :
    Reply (IT × List (Option Int)) :=
  if ¬ (IT.i64.InRange (max1 + 1) ∧ IT.i64.InRange (max2 + 1) ∧ IT.i64.InRange ((max1 + 1) * (max2 + 1))) then .undefined
  else if a.lay.len ≠ b.lay.len then .lengths
  else match badFilter a.lay.len filter with
    | some r => r
    | none =>
      if (max1 + 1) * (max2 + 1) < 0 then .tooMany
      else match keyType a.type, keyType b.type with
        | some t1, some t2 =>
          if room = false then .memory
          else match items t1 m a.lay.len, items t2 bm a.lay.len, filterBytes a.lay.len filter with
            | some in1, some in2, some filt => .of2 (Combine.combineAccum2 max1 max2 in1 in2 filt par)
            | _, _, _ => .undefined
        | _, _ => .typeRefused

/-- The filter of `CombineAccum1Filter`, `src/Convert.cpp:2201-2213`: what is no array counts as `None`. -/
def badFilter1 {α : Type} (n : Nat) : FilterArg → Option (Reply α)
  | .array f _ => if n ≠ f.lay.len then some .lengths else if f.type ≠ 0 then some .filterType else none
  | _ => none

/-- The rows kept, `src/Convert.cpp:2088` and 2133-2138. -/
def keptOf (n : Nat) : FilterArg → Option (List Bool)
  | .array _ fm => (keptBytes fm n).map fun l => l.map fun x => decide (x ≠ 0)
  | _ => some (List.replicate n true)

/-- The list which is answered, `src/Convert.cpp:2265-2286`: new keys, first rows and their number. -/
def answer1 (room : Room) (n : Nat) : Option (List Int × List Int) → Reply (List Int × List Int × Nat)
  | none => .undefined
  | some (out, firsts) => if firsts.length < n ∧ room.shorter = false then .broken else .ok (out, firsts, firsts.length)

/-- `CombineAccum1Filter`, `src/Convert.cpp:2181-2290`. The new keys have the type and the shape of the keys and are listed in the order of memory.
The scratch table is cleared without a look at whether it exists (line 2081). -/
def accum1 (room : Room) (a : Arr) (m : Mem) (max : Int) (filter : FilterArg) : Reply (List Int × List Int × Nat) :=
  match badFilter1 a.lay.len filter with
  | some r => r
  | none =>
    if ¬ IT.i64.InRange (max + 1) then .undefined
    else if max + 1 < 0 ∨ max + 1 > 2000000000 then .tooMany
    else match keyType a.type with
      | none => .typeRefused
      | some t =>
        if room.out = false ∨ room.first = false then .memory
        else if room.table = false ∧ max + 1 ≠ 0 then .undefined
        else match items t m a.lay.len, keptOf a.lay.len filter with
          | some keys, some kept => answer1 room a.lay.len (Combine.combineAccum1 t (max + 1).toNat (keys.zip kept))
          | _, _ => .undefined

end Riptide.Keys
