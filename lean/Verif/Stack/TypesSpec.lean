/-! # Which numbers the items of each type can be -/
namespace Riptide.Stack

/-- The types of numbers: bool, signed and unsigned integers of 8 to 64 bits, three kinds of floating point numbers. -/
def numTypes : List Nat := [0, 1, 2, 3, 4, 5, 6, 9, 10, 11, 12, 13]

/-- The integers from `lo` to `hi`. -/
def IntRange (lo hi : Int) (v : Rat) : Prop := ∃ n : Int, lo ≤ n ∧ n ≤ hi ∧ v = n

/-- The floating point numbers with `m` bits and exponents from `-k` to `j`. -/
def Binary (m j k : Nat) (v : Rat) : Prop :=
  ∃ (q : Int) (a b : Nat), -(2 ^ m : Int) < q ∧ q < 2 ^ m ∧ a ≤ j ∧ b ≤ k ∧ v * (2 : Rat) ^ b = q * (2 : Rat) ^ a

/-- The numbers of a type.  The invalid of a type (the least signed, the greatest unsigned integer, NaN) is treated apart from this. -/
def Holds (t : Nat) (v : Rat) : Prop :=
  match t with
  | 0 => IntRange 0 1 v
  | 1 => IntRange (-2 ^ 7) (2 ^ 7 - 1) v
  | 2 => IntRange 0 (2 ^ 8 - 1) v
  | 3 => IntRange (-2 ^ 15) (2 ^ 15 - 1) v
  | 4 => IntRange 0 (2 ^ 16 - 1) v
  | 5 => IntRange (-2 ^ 31) (2 ^ 31 - 1) v
  | 6 => IntRange 0 (2 ^ 32 - 1) v
  | 9 => IntRange (-2 ^ 63) (2 ^ 63 - 1) v
  | 10 => IntRange 0 (2 ^ 64 - 1) v
  | 11 => Binary 24 104 149 v
  | 12 => Binary 53 971 1074 v
  | 13 => Binary 64 16320 16445 v
  | _ => False

end Riptide.Stack
