import Verif.Sort.Spec
import Verif.Str.Spec
import Verif.Str.Model
import Verif.Sort.Call
/-! What a lexsort call should do, independent of how it works. -/
namespace Riptide.Sort.Call.Spec
open Riptide.Sort.Spec Riptide.Hash

/-- Floats: the numbers in their order (or the reverse), the NaNs after all numbers. -/
def fltBefore (f : FT) (asc : Bool) (x y : Nat) : Bool :=
  !f.isNan x && (f.isNan y || if asc then decide (f.key x < f.key y) else decide (f.key y < f.key x))

/-- Numbers of a type. -/
def numBefore (ty : Nat) (asc : Bool) (x y : Int) : Bool :=
  if ty = 11 then fltBefore .f32 asc x.toNat y.toNat
  else if ty = 12 then fltBefore .f64 asc x.toNat y.toNat
  else if asc then decide (x < y) else decide (y < x)

/-- Texts by their contents; raw bytes by the total order of C51. -/
def textBefore (ty : Nat) (asc : Bool) (x y : List Nat) : Bool :=
  if ty = 20 then Str.voidLt asc x y
  else if asc then decide (Str.Spec.content x < Str.Spec.content y) else decide (Str.Spec.content y < Str.Spec.content x)

/-- Row `i` comes before row `j` in this array. -/
def keyBefore (ty : Nat) (asc : Bool) : Data → Nat → Nat → Bool
  | .nums v, i, j => numBefore ty asc (v.getD i 0) (v.getD j 0)
  | .texts v, i, j => textBefore ty asc (v.getD i []) (v.getD j [])

/-- An array with one dimension: the number of its type and its items. -/
structure Col where
  ty : Nat
  d : Data

/-- As it is passed. -/
def Col.key (c : Col) : Key := .array c.ty 1 false c.d

/-- An array with `n` items of a type that can be sorted. -/
def Col.Good (n : Nat) (c : Col) : Prop :=
  match c.d with
  | .nums v => c.ty ≤ 12 ∧ v.length = n
  | .texts v => v.length = n ∧ ((c.ty = 18 ∨ c.ty = 19) ∧ (∃ w, ∀ s ∈ v, s.length = w) ∨ c.ty = 20 ∧ ∃ w, ∀ s ∈ v, s.length = w ∧ ∀ x ∈ s, x < 256)

/-- The orders by the single arrays, in their directions. -/
def orders (ks : List Col) (dirs : List Bool) : List (Nat → Nat → Bool) :=
  (ks.zip dirs).map fun p => keyBefore p.1.ty p.2 p.1.d

/-- The directions meant by the keyword `ascending`, for `k` arrays. -/
inductive Means (k : Nat) : Asc → List Bool → Prop
  | absent : Means k .absent (List.replicate k true)
  | bool (b : Bool) : Means k (.bool b) (List.replicate k b)
  /-- a boolean array, item after item in memory -/
  | array (dirs : List Bool) (rest : List UInt8) (h : dirs.length = k) :
      Means k (.array k (dirs.map (fun b => if b then 1 else 0) ++ rest)) dirs

/-- Cutoffs in an `int64` array, item after item in memory. -/
def cutArg (cuts : List Nat) (rest : List Int) : CutArg := ⟨true, cuts.length, 1, cuts.map (fun (c : Nat) => (c : Int)) ++ rest⟩

/-- Row numbers in an array of the wanted type, item after item in memory; what is behind them in the same memory is `rest`. -/
def idxArg (bits : Nat) (items : List Nat) (rest : List Int) : IdxArg :=
  ⟨some bits, items.length, items.map (fun (i : Nat) => (i : Int)) ++ rest⟩

/-- Partition `t` begins here. -/
def lo (cuts : List Nat) (t : Nat) : Nat := if t = 0 then 0 else cuts.getD (t - 1) 0

/-- `out` holds, for every partition, its rows counted from its begin, in the stable order by all arrays. -/
def Partitioned (n : Nat) (cuts : List Nat) (lts : List (Nat → Nat → Bool)) (out : List Nat) : Prop :=
  out.length = n ∧ ∀ t, t < cuts.length →
    StableSort (fun i j => lexLt lts (lo cuts t + i) (lo cuts t + j)) (List.range (cuts.getD t 0 - lo cuts t))
      ((out.drop (lo cuts t)).take (cuts.getD t 0 - lo cuts t))

end Riptide.Sort.Call.Spec
