import Verif.Hash.MkEntry
import Verif.Hash.MultiKeySpec
/-! # What grouping rows of several arrays means -/
namespace Riptide.Hash.Spec

/-- The flags a filter stands for; without a filter every row is kept. -/
def flagsOf (n : Nat) : Option FilterArg → List Bool
  | none => List.replicate n true
  | some f => (List.range n).map fun i => decide (f.mem.getD (i * f.step) 0 ≠ 0)

/-- A boolean filter with a flag for every row. -/
def IsFilter (n : Nat) : Option FilterArg → Prop
  | none => True
  | some f => f.isBool = true ∧ f.len = n ∧ ∀ i, i < n → i * f.step < f.mem.length

/-- The flags of the filter lie side by side. -/
def Packed : Option FilterArg → Prop
  | none => True
  | some f => f.step = 1 ∨ f.len ≤ 1

/-- The rows of the arrays, and whether they are kept. -/
def keyed (keys : List KeyCol) (n : Nat) (filter : Option FilterArg) : List (List (List UInt8) × Bool) := (rowsOf keys n).zip (flagsOf n filter)

/-- Bytes in a row. -/
def rowWidth (keys : List KeyCol) : Nat := (keys.map (·.width)).sum

/-- There is room for `d` different rows in the table that the call asks for when `want` entries are expected. -/
def Room (mode : Int) (width want d : Nat) : Prop :=
  (mode = 2 ∧ (width = 1 ∨ width = 2 ∨ d < 65536 ∨ d < 2 * want)) ∨
  (mode = 1 ∧ width ≠ 1 ∧ width ≠ 2 ∧ d ≤ want ∧ want < 68719476731) ∨
  (mode ≠ 1 ∧ mode ≠ 2 ∧ width ≠ 1 ∧ width ≠ 2 ∧ d < want)

/-- There are more than enough different rows to fill the table (`want` as above; the prime sizes are left out). -/
def TooMany (mode : Int) (want d : Nat) : Prop :=
  (mode = 2 ∧ 65536 < d ∧ 4 * want ≤ d) ∨ (mode ≠ 1 ∧ mode ≠ 2 ∧ 2 * want ≤ d ∧ 2 ≤ d)

/-- The entries expected: the hint, or as many as there are rows. -/
def expected (hint n : Nat) : Nat := if hint = 0 then n else hint

/-- Partition `i` of some rows: from the cutoff before it to its own. -/
def part {R : Type} (rows : List R) (cuts : List Nat) (i : Nat) : List R :=
  (rows.take (cuts.getD i 0)).drop (if i = 0 then 0 else cuts.getD (i - 1) 0)

/-- A row number, or -1. -/
def rowOr : Option Nat → Int
  | none => -1
  | some i => i

/-- The running totals of a list of numbers. -/
def totalsFrom : Nat → List Nat → List Nat
  | _, [] => []
  | t, n :: ns => (t + n) :: totalsFrom (t + n) ns

/-- The numbers as integers. -/
def ints (l : List Nat) : List Int := l.map fun (x : Nat) => (x : Int)

end Riptide.Hash.Spec
