import Verif.Pack.Model
import Verif.Arrays.Nums
/-!
# The calls `MakeiNext`, `GroupByPack32`, `GroupFromBinCount` and `BinCount` on arrays, `src/MultiKey.cpp`

The keys are read from the memory of the array, item after item from the first one on. Left out: numpy running out of memory, the small array of
`SegmentBins` failing to be allocated, arguments which are no arrays or no integers (`PyArg_ParseTuple` refuses them), and the alignment of the items.
-/
namespace Riptide.Pack.Call
open Riptide.Nums Riptide.Work

/-- What comes of a call. `failed`: an exception of numpy's or "failed internally"; `silent`: `NULL` is returned and no exception is set,
`src/MultiKey.cpp:2639-2643`. -/
inductive Result (α : Type) where
  | typeRefused
  | lengths
  | noRows
  | failed
  | silent
  | undefined
  | ok (answer : α)
  deriving DecidableEq, Repr

/-- `none` of a kernel is undefined behaviour. -/
def Result.of {α : Type} : Option α → Result α
  | some x => .ok x
  | none => .undefined

/-- What `FmAlloc` gives. -/
inductive Alloc where
  | bad
  | null
  | mem (bytes : Nat)
  deriving DecidableEq, Repr

/-- `FmAlloc`, `src/Recycler.cpp:53-68`: sixteen bytes more than asked for are requested, modulo 2^64, and both words of the guard are written into
the block. `room` tells which requests `malloc` meets. -/
def fmAlloc (room : Nat → Bool) (size : Int) : Alloc :=
  let bytes := ((size + 16) % 2 ^ 64).toNat
  if room bytes then (if bytes < 16 then .bad else .mem (bytes - 16)) else .null

/-- The bytes of a block. -/
def Alloc.cap : Alloc → Nat
  | .mem n => n
  | _ => 0

/-- The type of the keys by numpy's number, `src/MultiKey.cpp:873-891`, `2004-2021`, `2252-2269`. -/
def keyType : Nat → Option IT
  | 1 => some .i8
  | 3 => some .i16
  | 5 => some .i32
  | 7 | 9 => some .i64
  | _ => none

/-- The type of the keys by the size of an item, `src/MultiKey.cpp:582-600`. -/
def sizeType : Nat → Option IT
  | 1 => some .i8
  | 2 => some .i16
  | 4 => some .i32
  | 8 => some .i64
  | _ => none

/-- `pIndexArray[i]`, `src/MultiKey.cpp:517`. -/
def item (t : IT) (m : Mem) (i : Nat) : Option Int := loadInt t m ((i * (t.bits / 8) : Nat) : Int)

/-- All of them. -/
def items (t : IT) (m : Mem) (n : Nat) : Option (List Int) := (List.range n).mapM (item t m)

/-! ## `MakeiNext` -/

/-- `MakeNextKey` with its scratch array, `src/MultiKey.cpp:486-540`: without scratch array, or without groups, nothing is written. -/
def nextKernel (room : Nat → Bool) (t : IT) (m : Mem) (n : Nat) (unique mode : Int) : Option (List (Option Int)) :=
  if ¬ IT.i64.InRange (unique + 1) then none
  else match fmAlloc room ((t.bits / 8 : Nat) * (unique + 1)) with
    | .bad => none
    | .null => some (List.replicate n none)
    | .mem cap =>
      if (cap : Int) < (t.bits / 8 : Nat) * (unique + 1) then none
      else (items t m n).bind fun keys =>
        if unique + 1 ≤ 0 then some (List.replicate n none) else makeNextKey t mode unique.toNat keys

/-- `MakeiNext`, `src/MultiKey.cpp:554-606`. The answer has the type and the shape of the keys; its items are listed in the order of memory. -/
def makeiNext (room : Nat → Bool) (a : Arr) (m : Mem) (unique mode : Int) : Result (List (Option Int)) :=
  if a.type ≥ 10 ∨ a.type % 2 = 0 then .typeRefused
  else match sizeType a.lay.item with
    | none => .typeRefused
    | some t => .of (nextKernel room t m a.lay.len unique mode)

/-! ## `GroupByPack32` -/

/-- Three arrays. -/
abbrev Packed := List (Option Int) × List (Option Int) × List (Option Int)

/-- `GroupByPackFinal32` with links which may lie outside their array (`none`), `src/MultiKey.cpp:724-814`; as `groupByPackNext`, which has them
all. -/
def packLinks (bins : Nat) (keys : List Int) (nx : List (Option Int)) : Option Packed :=
  if keys.length ≥ 2 ^ 31 then none
  else do
    let s0 ← packInit keys.length bins
    let s1 ← packStart keys nx s0
    let s2 ← (List.range keys.length).foldlM (scanHeads keys nx) (s1, 1)
    let s3 ← packFinish keys nx s2.1
    some (s3.sort keys.length, s3.first, s3.count)

/-- `GroupByPackFixup32` and `GroupByPackFinal32` without links, `src/MultiKey.cpp:612-646` and `661-723`: neither scratch array is checked; the
number of groups is compared with an `int32_t`. -/
def packNoLinks (room : Nat → Bool) (g : Alloc) (t : IT) (m : Mem) (n : Nat) (unique : Int) : Result Packed :=
  if fmAlloc room (4 * (n : Int)) = .bad ∨ unique + 1 ≥ 2 ^ 31 ∨ (g.cap : Int) < 4 * (unique + 1) then .undefined
  else if n > 0 ∧ (unique + 1 ≤ 0 ∨ fmAlloc room (4 * (n : Int)) = .null) then .undefined
  else if unique + 1 < 0 then .failed
  else if unique + 1 = 0 then .undefined
  else .of ((items t m n).bind (groupByPack unique.toNat))

/-- `GroupByPackFinal32` with links, `src/MultiKey.cpp:661-691` and `724-825`: numpy refuses arrays of a negative length, and entry 0 of the others is
written. -/
def packWithLinks (t : IT) (m lm : Mem) (n : Nat) (unique : Int) : Result Packed :=
  if unique + 1 < 0 then .failed
  else if unique + 1 = 0 then .undefined
  else .of ((items t m n).bind fun keys => packLinks unique.toNat keys ((List.range n).map (item .i32 lm)))

/-- `GroupByPack32`, `src/MultiKey.cpp:841-950`: `links = none` for a second argument which is no array. The type of the links is not looked at. -/
def pack32 (room : Nat → Bool) (a : Arr) (m : Mem) (links : Option (Arr × Mem)) (unique : Int) : Result Packed :=
  if ¬ IT.i64.InRange (unique + 1) then .undefined
  else match links with
    | none =>
      if fmAlloc room (4 * (unique + 1)) = .bad then .undefined
      else match keyType a.type with
        | none => .typeRefused
        | some t => packNoLinks room (fmAlloc room (4 * (unique + 1))) t m a.lay.len unique
    | some (b, lm) =>
      if a.lay.len ≠ b.lay.len then .lengths
      else match keyType a.type with
        | none => .typeRefused
        | some t => packWithLinks t m lm a.lay.len unique

/-! ## `GroupFromBinCount` -/

/-- The number of the type of counts, `src/MultiKey.cpp:2074-2081` and `2424-2439`. -/
def outNo (rows : Nat) : Nat := if rows > 2000000000 then 7 else 5

/-- `GroupFromBinCount`, `src/MultiKey.cpp:2059-2199`: for other keys than the five types of integers the function is a null pointer
(`GetMakeIGroup`, lines 1996-2045), which is called for every band of bins. `seq` is the executed sequence of steps. -/
def groupFromCount (a : Arr) (m : Mem) (c : Arr) (cm : Mem) (fw : Nat) (nt : Bool) (seq : List Ev) :
    Result (List (Option Int) × List (Option Int)) :=
  if c.type ≠ outNo a.lay.len then .typeRefused
  else match items (outType a.lay.len) cm c.lay.len with
    | none => .undefined
    | some count =>
      match keyType a.type with
      | some t => .of ((items t m a.lay.len).bind fun keys => groupFromBinCount keys count seq)
      | none =>
        if (packBands a.lay.len c.lay.len fw nt).length = 0 then
          .of ((cumsum (outType a.lay.len) 0 count).map fun first => (List.replicate a.lay.len none, first.map some))
        else .undefined

/-! ## `BinCount` -/

/-- `BinCount` answers one array or three. -/
inductive Counts where
  | one (count : List Nat)
  | three (p : Packed)
  deriving DecidableEq, Repr

/-- Whether the counts of several cores are kept, `src/MultiKey.cpp:2459`. -/
def cored (rows unique : Nat) (pack nt : Bool) : Bool := pack || (! nt && decide (rows > 32000) && decide (rows / unique > 50))

/-- The bytes for them, `InternalBinCount`, `src/MultiKey.cpp:2300-2318`. -/
def coreBytes (rows unique fw : Nat) : Int := (((segmentBins rows fw 31).length * unique * ((outType rows).bits / 8) : Nat) : Int)

/-- The counting, `src/MultiKey.cpp:2447-2655`. -/
def countKernel (t : IT) (m : Mem) (n unique fw : Nat) (pack nt : Bool) (calls : List Nat) (seq : List Ev) : Option Counts :=
  (items t m n).bind fun keys =>
    if pack then (binCountPack keys unique fw calls seq).bind fun r => r.map .three
    else (binCount keys unique fw nt calls).bind fun r => r.map .one

/-- `BinCount`, `src/MultiKey.cpp:2406-2655`: for other keys than the five types of integers the function is a null pointer
(`InternalGetBinFunc`, lines 2242-2293). If there is no memory for the counts of the cores, `NULL` is returned without an exception
(lines 2639-2643). -/
def binCountCall (room : Nat → Bool) (a : Arr) (m : Mem) (unique : Int) (pack nt : Bool) (fw : Nat) (calls : List Nat) (seq : List Ev) :
    Result Counts :=
  if unique = 0 ∨ a.lay.len = 0 then .noRows
  else if unique < 0 then .failed
  else if cored a.lay.len unique.toNat pack nt = true ∧ fmAlloc room (coreBytes a.lay.len unique.toNat fw) = .null then .silent
  else if cored a.lay.len unique.toNat pack nt = true ∧ fmAlloc room (coreBytes a.lay.len unique.toNat fw) = .bad then .undefined
  else match keyType a.type with
    | none => .undefined
    | some t => .of (countKernel t m a.lay.len unique.toNat fw pack nt calls seq)

end Riptide.Pack.Call
