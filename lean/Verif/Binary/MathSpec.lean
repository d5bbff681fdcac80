import Verif.Binary.Spec
import Verif.Binary.Math
/-! What arithmetic on two arrays ought to give. -/
namespace Riptide.Binary.Spec

/-- The exact result of an operation on integers. -/
def exact (op : MOp) (a b : Int) : Option Int :=
  match op with
  | .add => some (a + b)
  | .sub => some (a - b)
  | .mul => some (a * b)
  | .min => some (if a ≤ b then a else b)
  | .max => some (if a ≤ b then b else a)
  | _ => none

/-- The type in which C++ calculates. -/
def promoted (t : IT) : IT := if t.bits < 32 then .i32 else t

/-- The calculation does not overflow a signed type, which would be undefined behaviour. -/
def Fits (t : IT) (r : Int) : Prop := (promoted t).signed = true → (promoted t).InRange r

/-- What a bitwise operation does to each bit. -/
def bitFn (op : MOp) (p q : Bool) : Option Bool :=
  match op with
  | .bitAnd => some (p && q)
  | .bitOr => some (p || q)
  | .bitXor => some (p ^^ q)
  | .bitXorSpecial => some (p ^^ q)
  | .bitAndNot => some (p && !q)
  | .bitNotAnd => some (!p && q)
  | _ => none

/-- The main type: that of the array if the first argument is a scalar, else that of the first. -/
def mainTy (mode : Mode) (t1 t2 : Nat) : Nat := if mode = .first then t2 else t1

end Riptide.Binary.Spec
