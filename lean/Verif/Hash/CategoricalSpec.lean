import Verif.Hash.Spec
/-! # What positions among categories are -/
namespace Riptide.Hash.Spec

/-- Every element has the number (from 1 on) of the first category that is the same, or 0 when there is
none, and the flag says whether there is an element without a category. -/
def AreCategories {K : Type} (same : K → K → Prop) (a b : List K) (out : List Int) (missed : Bool) : Prop :=
  out.length = a.length ∧
  (∀ (i : Nat) x r, a[i]? = some x → out[i]? = some r →
    (∃ j : Nat, r = (j : Int) + 1 ∧ FirstAt (fun y => same y x) b j) ∨ (r = 0 ∧ ∀ y ∈ b, ¬ same y x)) ∧
  (missed = true ↔ ∃ x ∈ a, ∀ y ∈ b, ¬ same y x)

/-- `l` is what an array of `rows` elements, `step` cells apart in memory, holds. -/
def Elements {C : Type} (cells : List C) (rows step : Nat) (l : List C) : Prop :=
  l.length = rows ∧ ∀ i : Nat, i < rows → ∃ c, cells[i * step]? = some c ∧ l[i]? = some c

/-- Byte `i`, or 0. -/
def byteAt (s : List UInt8) (i : Nat) : Nat := ((s[i]?).map UInt8.toNat).getD 0

/-- The characters of a text item: little-endian words of four bytes in a unicode array, bytes otherwise. -/
def charsOf (unicode : Bool) (s : List UInt8) : List Nat :=
  if unicode then (List.range (s.length / 4)).map fun i =>
    byteAt s (4 * i) + 256 * byteAt s (4 * i + 1) + 65536 * byteAt s (4 * i + 2) + 16777216 * byteAt s (4 * i + 3)
  else s.map UInt8.toNat

/-- Two type numbers are the same type: `long` (7, 8) and `long long` (9, 10) are, with the same sign. -/
def SameTy (a b : Nat) : Prop := a = b ∨ (a, b) ∈ [(7, 9), (9, 7), (8, 10), (10, 8)]

end Riptide.Hash.Spec
