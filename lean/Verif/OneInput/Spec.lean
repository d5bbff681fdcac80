import Verif.Common.Num
/-! What `process_one_input` should do: numpy's numbers of the types, and where each function has its number. -/
namespace Riptide.OneInput.Spec

/-- numpy's numbers of the floating point types. -/
def FloatTy (ty : Nat) (f : FT) : Prop := (ty = 11 ∧ f = .f32) ∨ (ty = 12 ∧ f = .f64)

/-- numpy's numbers of the integer types; `long` and `long long` both have 64 bits. -/
def IntTy (ty : Nat) (t : IT) : Prop :=
  (ty, t) ∈ [(1, IT.i8), (2, IT.u8), (3, IT.i16), (4, IT.u16), (5, IT.i32), (6, IT.u32), (7, IT.i64), (8, IT.u64), (9, IT.i64), (10, IT.u64)]

instance (ty : Nat) (f : FT) : Decidable (FloatTy ty f) := inferInstanceAs (Decidable (_ ∨ _))
instance (ty : Nat) (t : IT) : Decidable (IntTy ty t) := inferInstanceAs (Decidable (_ ∈ _))

/-- Bytes of an item of a type of numbers. -/
def bytesOf (ty : Nat) : Nat :=
  match ty with
  | 1 | 2 => 1
  | 3 | 4 => 2
  | 5 | 6 | 11 => 4
  | 7 | 8 | 9 | 10 | 12 => 8
  | _ => 0

/-- A type of numbers. -/
def Number (ty : Nat) : Prop := 1 ≤ ty ∧ ty ≤ 12

/-- The functions which have an implementation: abs, neg, invert, floor, ceil, trunc, round, sqrt. -/
def valueFns : List Nat := [201, 202, 204, 205, 206, 207, 208, 301]
/-- The tests: isnan, isfinite, isnotnan, isnotfinite. -/
def testFns : List Nat := [604, 605, 608, 609]

/-- The last item computed in registers, if a register holds `lanes` items: one register less than fit is used when they fit exactly. -/
def inRegister (lanes n i : Nat) : Prop := i < lanes * ((n - 1) / lanes)

end Riptide.OneInput.Spec
