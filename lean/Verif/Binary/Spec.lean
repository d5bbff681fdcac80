import Verif.Common.Num
import Verif.Binary.Vec
/-! What operations on two arrays ought to do, stated without the helpers of the model. -/
namespace Riptide.Binary.Spec

/-- The type with numpy number `d`, where `long` has 64 bits; booleans are stored as 0 and 1 in a byte. -/
inductive Ty where
  | int (t : IT)
  | flt (f : FT)
  deriving DecidableEq, Repr

/-- Numpy type numbers. -/
def tyOf (d : Nat) : Option Ty :=
  match d with
  | 0 => some (.int .i8)
  | 1 => some (.int .i8) | 2 => some (.int .u8)
  | 3 => some (.int .i16) | 4 => some (.int .u16)
  | 5 => some (.int .i32) | 6 => some (.int .u32)
  | 7 => some (.int .i64) | 8 => some (.int .u64)
  | 9 => some (.int .i64) | 10 => some (.int .u64)
  | 11 => some (.flt .f32) | 12 => some (.flt .f64)
  | _ => none

/-- Bits of a value. -/
def Ty.width : Ty → Nat
  | .int t => t.bits
  | .flt f => 1 + f.eb + f.mb

/-- The number with bit pattern `v` in an integer type. -/
def valOf {n : Nat} (t : IT) (v : BitVec n) : Int := if t.signed then v.toInt else (v.toNat : Int)

/-- Memory holds the rows `x`: a scalar fills the 32 bytes of a register, an array has all rows. -/
def Feeds {n : Nat} (scalar : Bool) (len : Nat) (m : List (BitVec n)) (x : Nat → BitVec n) : Prop :=
  if scalar then ∃ v, m = List.replicate (256 / n) v ∧ ∀ i : Nat, x i = v else ∀ i : Nat, i < len → m[i]? = some (x i)

/-- What a comparison says of two numbers. -/
def rel (op : Cmp) (a b : Int) : Bool :=
  match op with
  | .eq => decide (a = b)
  | .ne => decide (a ≠ b)
  | .lt => decide (a < b)
  | .gt => decide (b < a)
  | .le => decide (a ≤ b)
  | .ge => decide (b ≤ a)

/-- What a comparison says of two floating point numbers: with a NaN only `!=` holds. -/
def relF (f : FT) (op : Cmp) (a b : Nat) : Bool :=
  if f.isNan a || f.isNan b then decide (op = .ne) else rel op (f.key a) (f.key b)

end Riptide.Binary.Spec
