import Verif.Unary.Call
import Verif.Unary.RoundProps
import Verif.Unary.TestProps
import Verif.Arrays.StackCallSpec
/-! What operations on one array should answer for each item (C157). -/
namespace Riptide.Unary.Call.Spec
open Riptide.Nums Riptide.Binary
open Riptide.Convert.Call.Spec (whole real)
open Riptide.Nums.Stack.Spec (HasVal)

/-- The item at `o` is this value; for texts, the first byte is. -/
def Item (ty : Nat) (m : Nums.Mem) (o x : Int) : Prop := if ty ≤ 13 then HasVal ty false m o x else 0 ≤ x ∧ x < 256 ∧ m o = some (BitVec.ofInt 8 x)

/-- The integer to which a number of `u` parts is rounded. A half goes to either of the nearest integers. -/
def Rounded : RoundOp → Int → Int → Int → Prop
  | .floor => Unary.Spec.Floor
  | .ceil => Unary.Spec.Ceil
  | .trunc => Unary.Spec.Trunc
  | .round => Unary.Spec.Nearest

/-- What is answered for a float: NaN is rounded to NaN and infinity to itself. -/
def OfFloat (lib : Lib) (f : FT) (op : Op) (x y : Nat) : Prop :=
  match op with
  | .abs => IsAbs f x y
  | .neg | .negative => IsNeg f x y
  | .sign => (f.isNan x = true → y = x) ∧
      (f.isNan x = false → (f.scaled x < 0 → y = f.ofInt (-1)) ∧ (f.scaled x = 0 → y = 0) ∧ (0 < f.scaled x → y = f.ofInt 1))
  | .round o => (f.isNan x = true → f.isNan y = true) ∧ (f.mag x = f.infMag → y = x) ∧
      (f.isFinite x = true → ∃ n : Int, f.isFinite y = true ∧ f.scaled y = n * (2 ^ f.unit : Nat) ∧ Rounded o (f.scaled x) (2 ^ f.unit : Nat) n)
  | .fn g => y = lib.fn g f x
  | .test t => y = if t.meaning (Unary.Spec.class_ f x) (f.neg x) then 1 else 0
  | .invert => False

/-- What is answered for an integer; riptide's invalid counts as NaN for tests. -/
def OfInt (lib : Lib) (t : IT) (op : Op) (x y : Int) : Prop :=
  match op with
  | .abs => y = Unary.Spec.abs t x
  | .neg | .negative => y = Unary.Spec.neg t x
  | .sign => y = x.sign
  | .invert => t.InRange y ∧ BitVec.ofInt t.bits y = ~~~ BitVec.ofInt t.bits x
  | .fn g => y = lib.fn g .f64 (FT.f64.ofInt x)
  | .test k => y = if k.meaning (intClass t x) (decide (x < 0)) then 1 else 0
  | .round _ => False

/-- What is answered for a boolean. -/
def OfBool (op : Op) (x y : Int) : Prop :=
  match op with
  | .invert => y = 1 - x
  | .test k => y = if k.meaning (if x = 1 then .normal else .zero) false then 1 else 0
  | _ => False

/-- What is answered for a text of which `x` is the first byte: it is taken for empty, and so for invalid, if that is zero. -/
def OfText (op : Op) (x y : Int) : Prop :=
  match op with
  | .test k => y = if k.meaning (if x = 0 then .nan else .normal) false then 1 else 0
  | _ => False

/-- What is answered for an item of the type. -/
def Answer (lib : Lib) (op : Op) (ty : Nat) (x y : Int) : Prop :=
  match whole ty, real ty with
  | some t, _ => OfInt lib t op x y
  | none, some f => 0 ≤ y ∧ OfFloat lib f op x.toNat y.toNat
  | none, none => if ty = 0 then OfBool op x y else if ty = 13 then y = lib.long op x.toNat else OfText op x y

/-- For these items the answer is right: not the smallest number of 32 or 64 bits for its absolute value or negation, none from 2^63 on for functions, and only normal
ones among integers, booleans and texts for whether they are normal. -/
def Fine (op : Op) (ty : Nat) (x : Int) : Prop :=
  match whole ty, op with
  | some t, .abs | some t, .neg | some t, .negative => t.bits < 32 ∨ x ≠ t.lo
  | some _, .fn _ => x < 2 ^ 63
  | some t, .test .isnormal | some t, .test .isnotnormal => intClass t x = .normal
  | none, .test .isnormal | none, .test .isnotnormal => (ty = 0 → x = 1) ∧ (13 < ty → x ≠ 0)
  | _, _ => True

/-- The types for which there is a kernel. -/
def Known (op : Op) (ty : Nat) : Prop :=
  match op with
  | .abs | .neg | .negative | .sign => (1 ≤ ty ∧ ty ≤ 10 ∧ ty % 2 = 1) ∨ 11 ≤ ty ∧ ty ≤ 13
  | .invert => ty ≤ 10
  | .round _ => 11 ≤ ty ∧ ty ≤ 13
  | .fn .cbrt => 5 ≤ ty ∧ ty ≤ 10
  | .fn _ => 5 ≤ ty ∧ ty ≤ 13
  | .test .signbit => 11 ≤ ty ∧ ty ≤ 13
  | .test .lnot => ty ≤ 13
  | .test _ => ty ≤ 13 ∨ ty = 18 ∨ ty = 19

/-- The type of the answer: booleans for tests, a float type for functions, else that of the array. -/
def Kind (op : Op) (ty out : Nat) : Prop :=
  match op with
  | .test _ => out = 0
  | .fn _ => if 11 ≤ ty ∧ ty ≤ 13 then out = ty else out = 12
  | _ => out = ty

/-- The numbers of the operations. -/
def codes : List (Int × Op) :=
  [(201, .abs), (202, .neg), (204, .invert), (205, .round .floor), (206, .round .ceil), (207, .round .trunc), (208, .round .round), (212, .negative), (214, .sign),
   (216, .fn .exp), (217, .fn .exp2), (301, .fn .sqrt), (302, .fn .log), (304, .fn .log10), (308, .fn .cbrt), (601, .test .lnot), (603, .test .isinf), (604, .test .isnan),
   (605, .test .isfinite), (606, .test .isnormal), (607, .test .isnotinf), (608, .test .isnotnan), (609, .test .isnotfinite), (610, .test .isnotnormal),
   (611, .test .isnanorzero), (612, .test .signbit), (701, .invert)]

/-- What is written to an array of that layout is the answer for each item of the other array, at the place of the same index, and nothing else. -/
def Right (lib : Lib) (op : Op) (a : Arr) (xs : List Nat → Int) (out : Lay) (writes : List (Int × Option Int)) : Prop :=
  (∀ idx, InBounds idx a.lay.dims → ∃ y, (offs idx out.strides, some y) ∈ writes ∧ Answer lib op a.type (xs idx) y) ∧
  ∀ w ∈ writes, ∃ idx y, InBounds idx a.lay.dims ∧ w = (offs idx out.strides, some y) ∧ Answer lib op a.type (xs idx) y

end Riptide.Unary.Call.Spec
