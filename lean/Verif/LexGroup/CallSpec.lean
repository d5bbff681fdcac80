import Verif.LexGroup.Spec
import Verif.Quick.CallSpec
/-! Arrays which can be grouped (C152). -/
namespace Riptide.LexGroup.Call.Spec
open Riptide.Nums Riptide.Quick.Call.Spec

/-- An array of `int32` or `int64` row numbers in C order and in the order of bytes of the machine. -/
structure Index (a : Arr) (t : IT) (m : Mem) (order : List Nat) : Prop where
  type : (a.type = 5 ∧ t = .i32) ∨ ((a.type = 7 ∨ a.type = 9) ∧ t = .i64)
  item : a.lay.item = t.bits / 8
  plain : Plain a
  vals : Ints t a m (order.map fun (i : Nat) => (i : Int))

/-- An array of any type in C order whose items have these bytes. -/
structure Values (a : Arr) (m : Mem) (rs : List (List Nat)) : Prop where
  dims : a.lay.strides.length = a.lay.dims.length
  contig : a.lay.cContig = true
  bytes : Rows 1 a.lay.item a m rs

/-- An array of `int64` in C order and in the order of bytes of the machine which holds these cutoffs. -/
structure Cuts (a : Arr) (m : Mem) (cuts : List Nat) : Prop where
  type : a.type = 7 ∨ a.type = 9
  item : a.lay.item = 8
  plain : Plain a
  vals : Ints .i64 a m (cuts.map fun (c : Nat) => (c : Int))

/-- The filter is none, is no array of booleans, or has this length. -/
def FilterFits (n : Nat) (f : Option Arr) : Prop := ∀ a, f = some a → a.type = 0 → a.lay.len = n

/-- The items are numbers as long as those of the machine. -/
def NumberWidth (w : Nat) : Prop := w ∈ [1, 2, 4, 8]

instance (w : Nat) : Decidable (NumberWidth w) := inferInstanceAs (Decidable (_ ∈ _))

/-- Partition `t` of rows which are cut at `cuts`: its first row. -/
def first (cuts : List Nat) : Nat → Nat
  | 0 => 0
  | t + 1 => cuts.getD t 0

/-- The rows of partition `t`. -/
def part {β : Type} (cuts : List Nat) (l : List β) (t : Nat) : List β := (l.drop (first cuts t)).take (cuts.getD t 0 - first cuts t)

end Riptide.LexGroup.Call.Spec
