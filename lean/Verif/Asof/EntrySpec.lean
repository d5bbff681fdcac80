import Verif.Asof.Spec
import Verif.Asof.Entry
import Verif.Hash.MultiKeySpec
/-! # What the entries of the as-of merges should do -/
namespace Riptide.Asof.Spec
open Riptide.Hash Riptide.Hash.Spec

/-- The numpy types of times and the sizes of their items: 32- and 64-bit integers (the latter have two names each), float32 and
float64. -/
def timeTypes : List (Int × Nat) := [(5, 4), (6, 4), (7, 8), (8, 8), (9, 8), (10, 8), (11, 4), (12, 8)]

/-- The number which a word of an integer type stands for. -/
def numberOf (ty : Int) (w : Nat) : Int :=
  if ty = 5 then Int.bmod w (2 ^ 32) else if ty = 7 ∨ ty = 9 then Int.bmod w (2 ^ 64) else if ty = 6 then w % 2 ^ 32 else w % 2 ^ 64

/-- A time which is not invalid: not the least signed integer, not the greatest unsigned integer, not NaN. -/
def validTime (ty : Int) (w : Nat) : Bool :=
  if ty = 11 then !FT.f32.isNan w else if ty = 12 then !FT.f64.isNan w
  else decide (numberOf ty w ≠ (if ty = 5 then -2 ^ 31 else if ty = 7 ∨ ty = 9 then -2 ^ 63 else if ty = 6 then 2 ^ 32 - 1 else 2 ^ 64 - 1))

/-- One time is before another one. -/
def earlier (ty : Int) (x y : Nat) : Bool :=
  if ty = 11 then FT.f32.lt x y else if ty = 12 then FT.f64.lt x y else decide (numberOf ty x < numberOf ty y)

/-- The times of an array. -/
def timesOf (v : Times) : List Nat := (List.range v.len).map fun k => v.mem.getD (k * v.step) 0

/-- The array lies in its memory and its items are next to each other. -/
def Times.Packed (v : Times) : Prop := v.len ≤ v.mem.length ∧ (v.step = 1 ∨ v.len ≤ 1)

/-- The number in an index array: the one row, or the invalid number. -/
def IndexOf (inv : Int) (P : Option Nat → Prop) (x : Int) : Prop := (x = inv ∧ P none) ∨ ∃ j : Nat, x = j ∧ P (some j)

/-- The numpy types of items of one size on Linux: 0 to 17 and 21 to 23. -/
def sizedTypes : List (Int × Nat) :=
  [(0, 1), (1, 1), (2, 1), (3, 2), (4, 2), (5, 4), (6, 4), (7, 8), (8, 8), (9, 8), (10, 8), (11, 4), (12, 8), (13, 16), (14, 8), (15, 16),
    (16, 32), (17, 8), (21, 8), (22, 8), (23, 2)]

/-- An array of a numpy type; items of text and void (18 to 20) have any size. -/
def HasSize (v : Times) : Prop := (v.ty, v.item) ∈ sizedTypes ∨ v.ty = 18 ∨ v.ty = 19 ∨ v.ty = 20

/-- The pairs of types of times which are merged: the same type; the two names of the 64-bit integers; dates and time spans on the
right of 64-bit integers. -/
def acceptedPairs : List (Int × Int) :=
  [(5, 5), (6, 6), (7, 7), (7, 9), (9, 7), (9, 9), (8, 8), (8, 10), (10, 8), (10, 10), (11, 11), (12, 12), (7, 21), (7, 22), (9, 21), (9, 22)]

/-- The keys in an array of integers. -/
def keysOf (ty : Int) (k : KeyCol) : List Int := (List.range k.rows).map fun i => numberOf ty (leWord (item k i))

end Riptide.Asof.Spec
