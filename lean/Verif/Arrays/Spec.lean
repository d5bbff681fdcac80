import Verif.Common.Num
/-! What the array helpers ought to do, stated without the helpers of the model. -/
namespace Riptide.Arrays.Spec

/-- Least and greatest value of the numpy type number `d`, for booleans and integers where `long` has 64 bits. -/
def bounds (d : Int) : Option (Int × Int) :=
  match d with
  | 0 => some (0, 1)
  | 1 => some (-128, 127) | 2 => some (0, 255)
  | 3 => some (-32768, 32767) | 4 => some (0, 65535)
  | 5 => some (-2147483648, 2147483647) | 6 => some (0, 4294967295)
  | 7 => some (-9223372036854775808, 9223372036854775807) | 8 => some (0, 18446744073709551615)
  | 9 => some (-9223372036854775808, 9223372036854775807) | 10 => some (0, 18446744073709551615)
  | _ => none

/-- All integers up to this magnitude are values of the float type number `d`. -/
def exactUpTo (d : Int) : Option Int :=
  match d with
  | 11 => some 16777216 | 12 => some 9007199254740992 | 13 => some 18446744073709551616
  | _ => none

/-- Every value of type `d` is a value of type `r`. -/
def holds (d r : Int) : Bool :=
  match bounds d, bounds r, exactUpTo d, exactUpTo r with
  | some a, some b, _, _ => decide (b.1 ≤ a.1 ∧ a.2 ≤ b.2)
  | some a, none, _, some m => decide (-m ≤ a.1 ∧ a.2 ≤ m)
  | none, none, some m, some m' => decide (m ≤ m')
  | _, _, _, _ => false

/-- The invalid value of an integer type: the least value of a signed, the greatest of an unsigned type; booleans have none. -/
def sentinel (d : Int) : Option Int :=
  if d = 0 then none else (bounds d).map fun b => if b.1 < 0 then b.1 else b.2

/-- The value `x` of type `d` in type `r`: an invalid value stays invalid. -/
def carry (d r x : Int) : Int := if sentinel d = some x then (sentinel r).getD 0 else x

/-- `x` is a value of the integer or boolean type `d`. -/
def ValueOf (d x : Int) : Prop := ∃ b, bounds d = some b ∧ b.1 ≤ x ∧ x ≤ b.2

/-- `x` with trailing blanks and zeros turned into zeros: `p` is what stays. -/
def Trimmed (x y : List Nat) : Prop :=
  ∃ p q, x = p ++ q ∧ (∀ u ∈ q, u = 32 ∨ u = 0) ∧ (∀ u, p.getLast? = some u → u ≠ 32 ∧ u ≠ 0) ∧
    y = p ++ List.replicate q.length 0

/-- `l` moved down by `k` places (up for negative `k`): rows without a source stay as they are. -/
def Shifted {α : Type} (l : List α) (k : Int) (l' : List α) : Prop :=
  l'.length = l.length ∧ ∀ (i : Nat), i < l.length →
    l'[i]? = if 0 ≤ (i : Int) + k ∧ (i : Int) + k < l.length then l[((i : Int) + k).toNat]? else l[i]?

/-- Row `j` of `l'` is the next unused value where the mask is set, and that of `l` elsewhere. -/
def Assigned {α : Type} (l : List α) (mask : List Bool) (vals : List α) (l' : List α) : Prop :=
  l'.length = l.length ∧ ∀ (j : Nat), j < l.length →
    l'[j]? = if mask[j]? = some true then vals[(mask.take j).count true]? else l[j]?

/-- Row `j` of `l'` is the value where the mask is set, and that of `l` elsewhere. -/
def Filled {α : Type} (l : List α) (mask : List Bool) (v : α) (l' : List α) : Prop :=
  l'.length = l.length ∧ ∀ (j : Nat), j < l.length → l'[j]? = if mask[j]? = some true then some v else l[j]?

/-- A view: the items of memory `l` at `0, stride, 2 * stride, …`. -/
def viewOf {α : Type} (l : List α) (stride n : Nat) : List (Option α) := (List.range n).map fun i => l[i * stride]?

end Riptide.Arrays.Spec
