import Verif.Work.Cores
import Verif.Common.Num
/-! # Model of min/max reductions, `src/Reduce.cpp`, `src/operations.h`, `src/rt_math.h` -/
namespace Riptide.Reduce
open Riptide.Work

/-- An element type as seen by a min or a max reduction: validity, the invalid value and the strict
comparison `better x y` (`x > y` for max, `x < y` for min). -/
structure Dom (α : Type) where
  valid : α → Bool
  inv : α
  better : α → α → Bool

/-- Element types: integers and IEEE floats (`bool` is processed as `int8_t`). -/
inductive Dtype
  | int (t : IT)
  | flt (f : FT)
  deriving DecidableEq

/-- `invalid_for_type`, `src/missing_values.h:50-277`, with the comparison of the reduction.  Float
values are bit patterns. -/
def dom (isMax : Bool) : Dtype → Dom Int
  | .int t => ⟨fun x => x != t.inv, t.inv, fun x y => if isMax then decide (y < x) else decide (x < y)⟩
  | .flt f => ⟨fun x => !f.isNan x.toNat, f.qnan, fun x y =>
      if isMax then f.lt y.toNat x.toNat else f.lt x.toNat y.toNat⟩

variable {α : Type}

/-- `std::max(a, b) = a < b ? b : a`, `std::min(a, b) = b < a ? b : a`. -/
def stdBest (D : Dom α) (a b : α) : α := if D.better b a then b else a

/-- `riptide::max`, `riptide::min`, `src/operations.h:16-36`. -/
def rBest (D : Dom α) (x y : α) : α :=
  if !D.valid x || !D.valid y then D.inv else stdBest D x y

/-- `min_with_nan_passthru`, `max_with_nan_passthru`, `src/rt_math.h:19-70`: floats. -/
def passthruFloat (D : Dom α) (x y : α) : α :=
  let blended := if !D.valid x then x else y
  if D.better x blended then x else blended

/-- `min_with_nan_passthru`, `max_with_nan_passthru`, `src/rt_math.h:19-70`: integers; `extreme` says
that the invalid value is the limit (`min()` for min, `max()` for max) of the type. -/
def passthruInt (D : Dom α) (extreme : Bool) (x y : α) : α :=
  if extreme then stdBest D x y
  else if D.valid x && D.valid y then stdBest D x y else D.inv

/-- `MAX_OP`, `MIN_OP` on one lane, `src/Reduce.cpp:77-141`.  Integers: lane-wise max/min.
Floats: `max_ps(x, blend)` returns its second operand when the first is not greater. -/
def laneOp (isMax : Bool) (d : Dtype) (x y : Int) : Int :=
  match d with
  | .int _ => stdBest (dom isMax d) x y
  | .flt _ => passthruFloat (dom isMax d) x y

/-- `contains_invalid`, `src/simd.h:13-103`: vector blocks of `w` elements, then single elements. -/
def containsInvalid (D : Dom α) (w : Nat) (l : List α) : Bool :=
  if _h : 0 < w ∧ w ≤ l.length then
    if (l.take w).any (fun x => !D.valid x) then true else containsInvalid D w (l.drop w)
  else l.any fun x => !D.valid x
termination_by l.length
decreasing_by simp only [List.length_drop]; omega

/-- The `while (pIn256 < pEnd256)` loop, `src/Reduce.cpp:1112-1123`: eight registers (`n` lanes in
all) accumulate the following vector blocks. -/
def vecLoop (op : α → α → α) (n : Nat) (acc l : List α) : List α × List α :=
  if _h : 0 < n ∧ n ≤ l.length then
    vecLoop op n (List.zipWith op acc (l.take n)) (l.drop n)
  else (acc, l)
termination_by l.length
decreasing_by simp only [List.length_drop]; omega

/-- Lanes `[r * w, (r+1) * w)`: register `m<r>`. -/
def reg (w : Nat) (acc : List α) (r : Nat) : List α := (acc.drop (r * w)).take w

/-- Winding down from eight registers to one, `src/Reduce.cpp:1125-1133`. -/
def windDown (op : α → α → α) (w : Nat) (acc : List α) : List α :=
  let m := reg w acc
  let m0 := List.zipWith op (m 0) (m 1)
  let m2 := List.zipWith op (m 2) (m 3)
  let m4 := List.zipWith op (m 4) (m 5)
  let m6 := List.zipWith op (m 6) (m 7)
  let m0 := List.zipWith op m0 m2
  let m4 := List.zipWith op m4 m6
  List.zipWith op m0 m4

/-- The value computed by `avx2` from a non-empty block, `src/Reduce.cpp:1067-1156`, 1260-1350:
`w` lanes per register, tail elements one by one. -/
def avxValue (D : Dom α) (op : α → α → α) (w : Nat) : List α → Option α
  | [] => none
  | x0 :: xs =>
    let l := x0 :: xs
    if 8 * w ≤ l.length then
      let r := vecLoop op (8 * w) (l.take (8 * w)) (l.drop (8 * w))
      match windDown op w r.1 with
      | [] => none
      | t0 :: ts => some (r.2.foldl (rBest D) (ts.foldl (rBest D) t0))
    else some (l.foldl (rBest D) x0)

/-- The value computed by `non_vector`, `src/Reduce.cpp:1022-1044`, 1220-1242: stop at the first
invalid element. -/
def nonVectorValue (D : Dom α) : List α → Option α
  | [] => none
  | x :: xs => some (if D.valid x then go x xs else x)
where
  go (r : α) : List α → α
    | [] => r
    | t :: ts => if !D.valid t then D.inv else go (stdBest D r t) ts

/-- Accumulator of one core, `stScatterGatherFunc`, `src/Reduce.cpp:361-381`: `lenOut`, whether
`resultOut` is NaN, and `min_or_max`.  For integers the numeric value of `resultOut` is never used;
for floats it is the exact widening of `min_or_max`. -/
structure Acc (α : Type) where
  lenOut : Nat
  bad : Bool
  mm : α

/-- `memset(pWorkSpace, 0, …)`, `src/Reduce.cpp:449`. -/
def Acc.zero (z : α) : Acc α := ⟨0, false, z⟩

/-- Storing the result of a block, `src/Reduce.cpp:1046-1062`, 1158-1174. -/
def store (D : Dom α) (a : Acc α) (result : α) (len : Nat) : Acc α :=
  if a.lenOut = 0 then ⟨len, !D.valid result, result⟩
  else ⟨a.lenOut + len, a.bad || !D.valid result, rBest D a.mm result⟩

/-- How a reduction kernel is built, `GetScatterGatherFuncPtr`, `src/Reduce.cpp:1180-1210`,
1525-1573. -/
inductive Kernel
  /-- `non_vector` (64-bit integers). -/
  | scalar
  /-- `avx2` with `w` lanes per register; `scan`: look for invalids first. -/
  | avx (w : Nat) (scan : Bool)

/-- Dispatch: `scan` unless the sentinel propagates by itself
(`src/Reduce.cpp:1070-1079`, 1262-1271). -/
def kernelOf (isMax : Bool) : Dtype → Kernel
  | .int t => if t.bits = 64 then .scalar else .avx (256 / t.bits) (t.signed == isMax)
  | .flt f => .avx (256 / (1 + f.eb + f.mb)) false

/-- One call of the reduction function on a block (`AnyScatterGather`, `src/Reduce.cpp:382-416`).
`none`: reading the first element of an empty block. -/
def block (isMax : Bool) (d : Dtype) (a : Acc Int) (l : List Int) : Option (Acc Int) :=
  let D := dom isMax d
  match kernelOf isMax d with
  | .scalar => (nonVectorValue D l).map fun r => store D a r l.length
  | .avx w scan =>
    if scan && containsInvalid D w l then some ⟨a.lenOut + l.length, true, D.inv⟩
    else (avxValue D (laneOp isMax d) w l).map fun r => store D a r l.length

/-- Gathering the results of the cores, `src/Reduce.cpp:466-535`. -/
def gather (D : Dom α) (t : Acc α × Bool) (c : Acc α) : Acc α × Bool :=
  if c.lenOut = 0 then t
  else if !t.2 then (⟨t.1.lenOut + c.lenOut, c.bad, c.mm⟩, true)
  else
    let bad := t.1.bad || c.bad
    let mm := rBest D t.1.mm c.mm
    if bad then (⟨t.1.lenOut + c.lenOut, bad, D.inv⟩, true)
    else if !D.valid mm then (⟨t.1.lenOut + c.lenOut, true, mm⟩, true)
    else (⟨t.1.lenOut + c.lenOut, bad, mm⟩, true)

/-- `WorkScatterGatherCall`, `src/Reduce.cpp:420-562`, with a per-core assignment of the blocks. -/
def scatterGather (blk : Acc α → List α → Option (Acc α)) (D : Dom α) (z : α) (xs : List α)
    (par : Option (List (List Nat))) : Option (Acc α) :=
  match par with
  | none => blk (.zero z) xs
  | some cores =>
    (cores.mapM fun (bs : List Nat) => bs.foldlM (fun a b => blk a (blockElems xs b)) (Acc.zero z)).map fun accs =>
      (accs.foldl (gather D) (Acc.zero z, false)).1

/-- `ReduceInternal` for `REDUCE_MIN`/`REDUCE_MAX`, `src/Reduce.cpp:3128-3360`: the returned value;
an empty array is left to numpy (`none` here means undefined behaviour, so it is excluded by the
callers' `len == 0` test, lines 3153-3158).  For floats the returned `resultOut` is the widening of
`min_or_max`, or NaN when it is bad. -/
def reduceExtreme (isMax : Bool) (d : Dtype) (xs : List Int) (par : Option (List (List Nat))) :
    Option Int :=
  (scatterGather (block isMax d) (dom isMax d) 0 xs par).map fun a => a.mm

/-! ## `nanmin`, `nanmax` -/

/-- The value of `ReduceNanMin::non_vector`, `ReduceNanMax::non_vector` on a block,
`src/Reduce.cpp:1629-1664`, 1903-1938: start from the first valid element. -/
def nanValue (D : Dom α) (l : List α) : α :=
  match l.dropWhile (fun x => !D.valid x) with
  | [] => D.inv
  | x :: xs => xs.foldl (fun r t => if D.valid t then stdBest D r t else r) x

/-- `ReduceNanMin::non_vector`, `ReduceNanMax::non_vector`, `src/Reduce.cpp:1629-1704`, 1903-1978. -/
def nanBlock (D : Dom α) (a : Acc α) (l : List α) : Option (Acc α) :=
  let r := nanValue D l
  some (if D.valid r then
    if a.lenOut = 0 then ⟨1, false, r⟩ else ⟨a.lenOut, a.bad, rBest D a.mm r⟩
  else a)

/-- `ReduceInternal` for `REDUCE_NANMIN`/`REDUCE_NANMAX`: invalid when nothing valid was found
(`src/Reduce.cpp:3303-3329`). -/
def reduceNanExtreme (isMax : Bool) (d : Dtype) (xs : List Int) (par : Option (List (List Nat))) :
    Option Int :=
  let D := dom isMax d
  (scatterGather (nanBlock D) D 0 xs par).map fun a => if a.lenOut = 0 then D.inv else a.mm

/-! ## `argmin`, `argmax`, `nanargmin`, `nanargmax` -/

/-- `ReduceArgMax::non_vector`, `ReduceArgMin::non_vector`, `src/Reduce.cpp:592-642`, 687-737, called
once on the whole array (lines 3160-3180). -/
def argBest (D : Dom α) : List α → Option Nat
  | [] => none
  | x :: xs => some (if D.valid x then go x 0 1 xs else 0)
where
  go (result : α) (at_ pos : Nat) : List α → Nat
    | [] => at_
    | t :: ts =>
      if !D.valid t then pos
      else if D.better t result then go t pos (pos + 1) ts else go result at_ (pos + 1) ts

/-- `ReduceNanargmax::non_vector`, `ReduceNanargmin::non_vector`, `src/Reduce.cpp:783-855`, 902-973,
called once on the whole array; `none`: the `ValueError` for an array without valid values. -/
def nanArgBest (D : Dom α) (l : List α) : Option Nat :=
  go none 0 l
where
  go (best : Option (α × Nat)) (pos : Nat) : List α → Option Nat
    | [] => best.map (·.2)
    | t :: ts =>
      if D.valid t then
        match best with
        | none => go (some (t, pos)) (pos + 1) ts
        | some (r, p) => if D.better t r then go (some (t, pos)) (pos + 1) ts
                         else go (some (r, p)) (pos + 1) ts
      else go best (pos + 1) ts

end Riptide.Reduce
