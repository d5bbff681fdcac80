import Verif.Common.Num
/-! What the operations on one array should give. -/
namespace Riptide.Unary.Spec

/-- The absolute value; the smallest number has none and stays (it is riptide's invalid). -/
def abs (t : IT) (x : Int) : Int := if x = t.lo then t.lo else if x < 0 then -x else x

/-- The negative; the smallest number has none and stays. -/
def neg (t : IT) (x : Int) : Int := if x = t.lo then t.lo else -x

/-- `n` is the number `x / u` rounded down. -/
def Floor (x u n : Int) : Prop := n * u ≤ x ∧ x < (n + 1) * u
/-- Rounded up. -/
def Ceil (x u n : Int) : Prop := (n - 1) * u < x ∧ x ≤ n * u
/-- Rounded towards zero. -/
def Trunc (x u n : Int) : Prop := if 0 ≤ x then Floor x u n else Ceil x u n
/-- Rounded to the nearest integer. -/
def Nearest (x u n : Int) : Prop := 2 * (x - n * u) ≤ u ∧ -u ≤ 2 * (x - n * u)
/-- Exactly between two integers. -/
def Half (x u : Int) : Prop := (2 * x) % (2 * u) = u
/-- Rounded to the nearest integer, halves away from zero. -/
def Away (x u n : Int) : Prop := Nearest x u n ∧ (Half x u → if 0 ≤ x then x ≤ n * u else n * u ≤ x)
/-- Rounded to the nearest integer, halves to the even one. -/
def Even (x u n : Int) : Prop := Nearest x u n ∧ (Half x u → n % 2 = 0)

/-- The classes of IEEE 754, by the fields for exponent and fraction. -/
inductive Class where
  | nan | inf | zero | subnormal | normal
  deriving DecidableEq, Repr

/-- The class of a bit pattern. -/
def class_ (f : FT) (b : Nat) : Class :=
  let e := b / 2 ^ f.mb % 2 ^ f.eb
  let m := b % 2 ^ f.mb
  if e = 2 ^ f.eb - 1 then (if m = 0 then .inf else .nan)
  else if e = 0 then (if m = 0 then .zero else .subnormal) else .normal

/-- The text has no characters: code points up to the last which is not 0. -/
def emptyText (chars : List Nat) : Bool := chars.all (· == 0)

end Riptide.Unary.Spec
