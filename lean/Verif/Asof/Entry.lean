import Verif.Asof.Model
import Verif.Hash.MultiKey
/-! # Model of the entries of the as-of merges: `MultiKeyAlign32` and `MergeBinnedAndSorted` -/
namespace Riptide.Asof
open Riptide.Hash

/-- An array of times: its numpy type number, the size of its items, its length, the distance of its items (in items), and the items
in memory from the first one on, as words of the size of an item. -/
structure Times where
  ty : Int
  item : Nat
  len : Nat
  step : Nat := 1
  mem : List Nat
  deriving DecidableEq, Repr

/-- `ObjectToDtype`, `src/RipTide.cpp:188-196`: -1 for dates, time spans, half precision and the types of users. -/
def dtypeOf (ty : Int) : Int := if ty < 0 ∨ 20 < ty then -1 else ty

/-- The types of times which can be merged, `src/HashLinear.cpp:4891-4968` and `4983-5061`. -/
inductive TimeTy where
  | int (t : IT)
  | flt (f : FT)
  deriving DecidableEq

/-- The `switch` over the type number, `src/HashLinear.cpp:4891-4968`; on Linux `NPY_INT64` is 7, `NPY_LONGLONG` 9. -/
def timeTy (d : Int) : Option TimeTy :=
  if d = 7 ∨ d = 9 then some (.int .i64)
  else if d = 5 then some (.int .i32)
  else if d = 8 ∨ d = 10 then some (.int .u64)
  else if d = 6 then some (.int .u32)
  else if d = 12 then some (.flt .f64)
  else if d = 11 then some (.flt .f32)
  else none

/-- `invalid_for_type<V>::is_valid`, `src/missing_values.h:52-277`. -/
def TimeTy.valid : TimeTy → Nat → Bool
  | .int t, w => decide (t.wrap w ≠ t.inv)
  | .flt f, w => !f.isNan w

/-- `pVal1[i] < pVal2[j]`. -/
def TimeTy.lt : TimeTy → Nat → Nat → Bool
  | .int t, x, y => decide (t.wrap x < t.wrap y)
  | .flt f, x, y => f.lt x y

/-- `pVal1[i] == pVal2[j]`. -/
def TimeTy.same : TimeTy → Nat → Nat → Bool
  | .int t, x, y => decide (t.wrap x = t.wrap y)
  | .flt f, x, y => f.eq x y

/-- The types of the two arrays of times agree, `src/MultiKey.cpp:1766-1775`: the same number, or both integers (or no known type, whose
number -1 is odd) of the same size and the same lowest bit. -/
def sameTypes (v1 v2 : Times) : Bool :=
  decide (dtypeOf v1.ty = dtypeOf v2.ty) ||
    (decide (dtypeOf v1.ty ≤ 10) && decide (dtypeOf v2.ty ≤ 10) && decide (dtypeOf v1.ty % 2 = dtypeOf v2.ty % 2) &&
      decide (v1.item = v2.item))

/-- What is returned: an exception with the number of index arrays which are never released, or the index array. -/
inductive AlignReply where
  | error (lost : Nat)
  | index (t : IT) (out : List (Option Int))
  deriving DecidableEq

/-- The number written for a location, `BAD_INDEX` for none, `src/HashLinear.cpp:863`. -/
def locOut (t : IT) : Option Nat → Int
  | none => t.inv
  | some j => t.wrap j

/-- The type of the index, `src/MultiKey.cpp:1796-1799`. -/
def alignIndex (n m : Nat) : IT := if 2000000000 < n ∨ 2000000000 < m then .i64 else .i32

/-- `AlignHashMK32` and `AlignHashMK64`, `src/HashLinear.cpp:4885-5065`, for times in memory. `none`: an access outside of an array,
or the exception of a full table (which needs as many rows as slots).  All `len` items are taken to be read. -/
def alignHash (t : IT) (H : List UInt8 → Nat) (size : Nat) (tt : TimeTy) (fwd ex : Bool) (a b : List (List UInt8)) (v1 v2 : Times) :
    Option AlignReply :=
  if v1.mem.length < v1.len ∨ v2.mem.length < v2.len then none
  else
    ((if fwd then findNextMatch else findLastMatch) (mkHash H size) size tt.valid tt.lt tt.same ex a b (v1.mem.take v1.len)
      (v2.mem.take v2.len)).map fun out => .index t (out.map (·.map (locOut t)))

/-- `MultiKeyAlign32`, `src/MultiKey.cpp:1695-1854`.  If a key cannot be prepared an exception is set; `None` is returned with it if all
other checks pass, which Python turns into another exception.  The hint and the filter of the keys are not used.  Failed allocations
are left out. -/
def align (H : List UInt8 → Nat) (A B : KeyArg) (v1 v2 : Times) (fwd ex : Bool) : Option AlignReply :=
  match prepare A, prepare B with
  | some (some p), some (some q) =>
    if p.width ≠ q.width then some (.error 0)
    else if dtypeOf v1.ty < 0 then some (.error 0)
    else if !sameTypes v1 v2 then some (.error 0)
    else if v1.len ≠ p.rows then some (.error 0)
    else if v2.len ≠ q.rows then some (.error 0)
    else match timeTy (dtypeOf v1.ty) with
      | none => some (.error 1)
      | some tt =>
        match p.keys, q.keys, allocSize .mask q.rows false with
        | some a, some b, some size => alignHash (alignIndex p.rows q.rows) H size tt fwd ex a b v1 v2
        | _, _, _ => none
  | some _, some _ => some (.error 0)
  | _, _ => none

/-! ## `MergeBinnedAndSorted` -/

/-- `pKey[i]` for keys read as the type `t`, `src/HashLinear.cpp:4848`; a negative key, or one outside of the array, is given the number
`size`, which is outside of the table. -/
def binKey (t : IT) (size : Nat) (data : List UInt8) (i : Nat) : Nat :=
  match cellAt (t.bits / 8) data i with
  | none => size
  | some c => if 0 ≤ t.wrap (leWord c) then (t.wrap (leWord c)).toNat else size

/-- The `switch` of `MergeBinnedAndSorted`, `src/HashLinear.cpp:6206-6230`, together with the one of `MergePreBinned`, 4855-4879: the
type of the times is taken for the type of the keys too; int8 and int16 are refused by the second one, other types by the first. -/
def binTy (d : Int) : Option IT := if d = 7 ∨ d = 9 then some .i64 else if d = 5 then some .i32 else none

/-- `MergeBinnedAndSorted`, `src/HashLinear.cpp:6152-6238`, with `MergePreBinned`, 4846-4880. The lengths and the types of the keys are
not looked at.  Counters of the type of the keys overflow for more rows or categories than it holds (`none`). -/
def mergeBinned (k1 k2 : KeyCol) (v1 v2 : Times) (uniq : Int) : Option AlignReply :=
  if dtypeOf v1.ty < 0 then some (.error 0)
  else if !sameTypes v1 v2 then some (.error 0)
  else match binTy (dtypeOf v1.ty) with
    | none => some (.error 1)
    | some t =>
      if v1.mem.length < k1.rows ∨ v2.mem.length < k2.rows ∨ t.hi < uniq ∨ t.hi < k1.rows ∨ t.hi < k2.rows then none
      else
        (findLastCategorical uniq.toNat (TimeTy.int t).lt ((List.range k1.rows).map (binKey t uniq.toNat k1.data))
          ((List.range k2.rows).map (binKey t uniq.toNat k2.data)) (v1.mem.take k1.rows) (v2.mem.take k2.rows)).map fun out =>
            .index t (out.map (·.map (locOut t)))

end Riptide.Asof
