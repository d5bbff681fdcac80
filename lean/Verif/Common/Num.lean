/-! # Numeric types

Trusted semantics of the C++ arithmetic types used by the models: fixed-width integers (values are
mathematical integers in the range of the type) and IEEE-754 binary floats (values are bit
patterns). -/
namespace Riptide

/-- A fixed-width integer type. -/
structure IT where
  bits : Nat
  signed : Bool
  deriving DecidableEq, Repr

namespace IT

/-- `int8_t`. -/
def i8 : IT := ⟨8, true⟩
/-- `int16_t`. -/
def i16 : IT := ⟨16, true⟩
/-- `int32_t`. -/
def i32 : IT := ⟨32, true⟩
/-- `int64_t`. -/
def i64 : IT := ⟨64, true⟩
/-- `uint8_t`. -/
def u8 : IT := ⟨8, false⟩
/-- `uint16_t`. -/
def u16 : IT := ⟨16, false⟩
/-- `uint32_t`. -/
def u32 : IT := ⟨32, false⟩
/-- `uint64_t`. -/
def u64 : IT := ⟨64, false⟩

/-- `std::numeric_limits<T>::min()`. -/
def lo (t : IT) : Int := if t.signed then -(2 : Int) ^ (t.bits - 1) else 0
/-- `std::numeric_limits<T>::max()`. -/
def hi (t : IT) : Int := if t.signed then (2 : Int) ^ (t.bits - 1) - 1 else (2 : Int) ^ t.bits - 1

/-- The value fits the type. -/
def InRange (t : IT) (x : Int) : Prop := t.lo ≤ x ∧ x ≤ t.hi

instance (t : IT) (x : Int) : Decidable (t.InRange x) := inferInstanceAs (Decidable (_ ∧ _))

/-- `static_cast<T>(x)` for an integer `x`: reduction modulo `2^bits` into the range of `T`. -/
def wrap (t : IT) (x : Int) : Int := (x - t.lo) % (2 : Int) ^ t.bits + t.lo

/-- Riptide's invalid value: the minimum of a signed type, the maximum of an unsigned type
(`missing_values.h` 60-215). -/
def inv (t : IT) : Int := if t.signed then t.lo else t.hi

theorem hi_eq (t : IT) (h : 0 < t.bits) : t.hi = t.lo + (2 : Int) ^ t.bits - 1 := by
  unfold hi lo
  split
  · obtain ⟨b, s⟩ := t
    simp only at h ⊢
    obtain ⟨k, rfl⟩ : ∃ k, b = k + 1 := ⟨b - 1, by omega⟩
    simp only [Nat.add_sub_cancel, Int.pow_succ]; omega
  · omega

theorem pow_pos (n : Nat) : (0 : Int) < (2 : Int) ^ n := Int.pow_pos (by decide)

theorem wrap_inRange (t : IT) (h : 0 < t.bits) (x : Int) : t.InRange (t.wrap x) := by
  unfold InRange wrap
  rw [hi_eq t h]
  have h1 := Int.emod_nonneg (x - t.lo) (Int.ne_of_gt (pow_pos t.bits))
  have h2 := Int.emod_lt_of_pos (x - t.lo) (pow_pos t.bits)
  omega

theorem wrap_of_inRange (t : IT) (h : 0 < t.bits) {x : Int} (hx : t.InRange x) : t.wrap x = x := by
  unfold InRange at hx
  rw [hi_eq t h] at hx
  unfold wrap
  rw [Int.emod_eq_of_lt (by omega) (by omega)]; omega

theorem inv_inRange (t : IT) (h : 0 < t.bits) : t.InRange t.inv := by
  unfold InRange inv
  rw [hi_eq t h]
  have := pow_pos t.bits
  split <;> omega

end IT

/-- An IEEE-754 binary format: number of exponent and mantissa bits. -/
structure FT where
  eb : Nat
  mb : Nat
  deriving DecidableEq, Repr

namespace FT

/-- `float`: IEEE-754 binary32. -/
def f32 : FT := ⟨8, 23⟩
/-- `double`: IEEE-754 binary64. -/
def f64 : FT := ⟨11, 52⟩

/-- Bit patterns of the format. -/
def Ok (f : FT) (b : Nat) : Prop := b < 2 ^ (1 + f.eb + f.mb)

/-- The sign bit. -/
def neg (f : FT) (b : Nat) : Bool := decide (2 ^ (f.eb + f.mb) ≤ b)
/-- Exponent and mantissa as one number: the magnitude order. -/
def mag (f : FT) (b : Nat) : Nat := b % 2 ^ (f.eb + f.mb)
/-- The magnitude of infinity. -/
def infMag (f : FT) : Nat := (2 ^ f.eb - 1) * 2 ^ f.mb
/-- `x != x`: the test used by `invalid_for_type`, `src/missing_values.h:219-277`. -/
def isNan (f : FT) (b : Nat) : Bool := decide (f.infMag < f.mag b)
/-- `std::isfinite`. -/
def isFinite (f : FT) (b : Nat) : Bool := decide (f.mag b < f.infMag)

/-- Order key of a number that is not NaN: IEEE comparison is integer comparison of keys, and the
two zeros have the same key. -/
def key (f : FT) (b : Nat) : Int := if f.neg b then -(f.mag b : Int) else f.mag b

/-- `a < b`. -/
def lt (f : FT) (a b : Nat) : Bool := !f.isNan a && !f.isNan b && decide (f.key a < f.key b)
/-- `a == b`. -/
def eq (f : FT) (a b : Nat) : Bool := !f.isNan a && !f.isNan b && decide (f.key a = f.key b)

/-- Exponent bias. -/
def bias (f : FT) : Nat := 2 ^ (f.eb - 1) - 1
/-- The value of a finite number is `± scaled * 2 ^ (-unit)`. -/
def unit (f : FT) : Nat := f.bias + f.mb - 1

/-- The value of a magnitude in units of the smallest subnormal. -/
def scaledMag (f : FT) (m : Nat) : Nat :=
  if m / 2 ^ f.mb = 0 then m else (2 ^ f.mb + m % 2 ^ f.mb) * 2 ^ (m / 2 ^ f.mb - 1)
/-- The signed value in units of the smallest subnormal. -/
def scaled (f : FT) (b : Nat) : Int :=
  if f.neg b then -(f.scaledMag (f.mag b) : Int) else f.scaledMag (f.mag b)

/-- The integer part of a finite number (truncation towards zero). -/
def trunc (f : FT) (b : Nat) : Int := Int.tdiv (f.scaled b) (2 ^ f.unit : Nat)

/-- `static_cast<Int>(x)`: truncation; undefined behaviour when the result does not fit (or the
number is not finite). -/
def toInt (f : FT) (t : IT) (b : Nat) : Option Int :=
  if f.isFinite b ∧ t.InRange (f.trunc b) then some (f.trunc b) else none

/-- The magnitude bits of the float nearest to the natural number `n > 0`, ties to even. -/
def roundMag (f : FT) (n : Nat) : Nat :=
  let k := n.log2
  if k ≤ f.mb then (k + f.bias) * 2 ^ f.mb + (n * 2 ^ (f.mb - k) - 2 ^ f.mb)
  else
    let s := k - f.mb
    let q := n / 2 ^ s
    let r := n % 2 ^ s
    let up := decide (2 ^ (s - 1) < r) || (decide (r = 2 ^ (s - 1)) && decide (q % 2 = 1))
    (k + f.bias) * 2 ^ f.mb + ((if up then q + 1 else q) - 2 ^ f.mb)

/-- `static_cast<Float>(x)` for an integer `x` (round to nearest, ties to even). -/
def ofInt (f : FT) (x : Int) : Nat :=
  if x = 0 then 0
  else (if x < 0 then 2 ^ (f.eb + f.mb) else 0) + f.roundMag x.natAbs

/-- The quiet NaN used as riptide's invalid value. -/
def qnan (f : FT) : Nat := f.infMag + 2 ^ (f.mb - 1)

end FT
end Riptide
