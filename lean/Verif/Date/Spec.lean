/-! # Dates and their text, independent of the code -/
namespace Riptide.Date.Spec

/-- A date: year, month, day. -/
structure D where
  y : Nat
  m : Nat
  d : Nat
deriving DecidableEq, Repr

/-- Leap years of the Gregorian calendar. -/
def leap (y : Nat) : Bool := y % 4 = 0 && (y % 100 ≠ 0 || y % 400 = 0)

/-- Days of a month. -/
def monthLen (y m : Nat) : Nat :=
  if m = 2 then (if leap y then 29 else 28) else if m = 4 ∨ m = 6 ∨ m = 9 ∨ m = 11 then 30 else 31

/-- A date of the calendar. -/
def Valid (a : D) : Prop := 1 ≤ a.m ∧ a.m ≤ 12 ∧ 1 ≤ a.d ∧ a.d ≤ monthLen a.y a.m

instance (a : D) : Decidable (Valid a) := inferInstanceAs (Decidable (_ ∧ _))

/-- The next day. -/
def next (a : D) : D :=
  if a.d < monthLen a.y a.m then ⟨a.y, a.m, a.d + 1⟩
  else if a.m < 12 then ⟨a.y, a.m + 1, 1⟩ else ⟨a.y + 1, 1, 1⟩

/-- The date `n` days after 1970-01-01. -/
def dateOf : Nat → D
  | 0 => ⟨1970, 1, 1⟩
  | n + 1 => next (dateOf n)

/-- Nanoseconds of a day. -/
def dayNanos : Int := 86400000000000

/-- Decimal representation with `w` digits, as characters. -/
def pad : Nat → Nat → List Int
  | 0, _ => []
  | w + 1, n => pad w (n / 10) ++ [48 + ((n % 10 : Nat) : Int)]

/-- A character of white space. -/
def Space (c : Int) : Prop := (9 ≤ c ∧ c ≤ 13) ∨ c = 32

/-- What may follow: white space and then nothing or a zero byte and anything. -/
def Tail (l : List Int) : Prop := ∃ ws z, l = ws ++ z ∧ (∀ c ∈ ws, Space c) ∧ (z = [] ∨ ∃ r, z = 0 :: r)

/-- White space. -/
def Blank (l : List Int) : Prop := ∀ c ∈ l, Space c

/-- The value of the digits of a fraction of a second, in nanoseconds. -/
def nanos (f : List Nat) : Nat := f.foldl (fun a x => 10 * a + x) 0 * 10 ^ (9 - f.length)

end Riptide.Date.Spec
