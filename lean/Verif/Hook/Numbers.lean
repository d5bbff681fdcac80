import Verif.Hook.Model
import Verif.Binary.Math
/-! # The types of the calculations of `src/BasicMath.cpp`, with exact numbers

For concrete calls: elements are rational numbers which are neither rounded nor reduced to the bits of their type; the types are
those of the code. -/
namespace Riptide.Hook
open Riptide.Binary (Mode)

/-- The type wanted for the output, `src/BasicMath.cpp:1274-1938` and `1969-2055`, `src/Compare.cpp:923-953` and `1206-1240`; `<<` and `>>`
are in neither list of calculations. -/
def wanted (op : Op) (mode : Mode) (t1 t2 : Nat) : Option Nat :=
  let main := if mode = .first then t2 else t1
  let same : Bool := decide (mode ≠ .none ∨ Binary.nonAmbiguous t1 = Binary.nonAmbiguous t2)
  if t1 ≤ 13 ∧ t2 ≤ 13 then
    match op with
    | .add | .sub | .mul | .mod => if same then some main else none
    | .div => if same then some (if main = 11 then 11 else 12) else none
    | .floordiv | .power => if same && decide (main ≠ 0) then some main else none
    | .bitAnd | .bitOr | .bitXor => if same && decide (main ≤ 10) then some main else none
    | .lt | .le | .eq | .ne | .gt | .ge =>
      if mode ≠ .none ∨ t1 = t2 ∨ (7 ≤ t1 ∧ t1 ≤ 10 ∧ 7 ≤ t2 ∧ t2 ≤ 10) then some 0 else none
    | .lshift | .rshift | .abs | .neg | .invert => none
  else none

/-- A truth value as a number. -/
def ofBool (b : Bool) : Rat := if b then 1 else 0

/-- Rounding towards zero, as a cast to an integer type does. -/
def trunc (v : Rat) : Rat := if v < 0 then -((-v).floor : Rat) else (v.floor : Rat)

/-- The calculation with exact numbers (bitwise ones for numbers which are not negative). -/
def exactly (op : Op) (x y : Rat) : Rat :=
  match op with
  | .add => x + y
  | .sub => x - y
  | .mul => x * y
  | .div => x / y
  | .floordiv => ((x / y).floor : Rat)
  | .mod => x - y * ((x / y).floor : Rat)
  | .power => x ^ y.num.toNat
  | .bitAnd => ((x.num.toNat &&& y.num.toNat : Nat) : Rat)
  | .bitOr => ((x.num.toNat ||| y.num.toNat : Nat) : Rat)
  | .bitXor => ((x.num.toNat ^^^ y.num.toNat : Nat) : Rat)
  | .lt => ofBool (decide (x < y))
  | .le => ofBool (decide (x ≤ y))
  | .eq => ofBool (decide (x = y))
  | .ne => ofBool (decide (x ≠ y))
  | .gt => ofBool (decide (y < x))
  | .ge => ofBool (decide (y ≤ x))
  | .lshift | .rshift | .abs | .neg | .invert => 0

/-- A number converted to a type, `src/Convert.cpp:1050-1180`. -/
def toType (t : Nat) (v : Rat) : Rat := if t = 0 then ofBool (decide (v ≠ 0)) else if t ≤ 10 then trunc v else v

/-- A scalar as a number. -/
def ofScal : Binary.Scal → Rat
  | .int v => (v : Rat)
  | .flt v => (v : Rat)

/-- The code's types with exact numbers and Python integers as scalars. -/
def numbers : Math Rat Int where
  kernel op mode t1 t2 := (wanted op mode t1 t2).map fun t => (t, exactly op)
  cast _ t v := toType t v
  up op s t := Binary.possiblyUpcast op.isCmp t s
  scal s t := (Binary.convertScalar s t).map ofScal
  pair op i j := Binary.checkUpcast op.isCmp i j
  upOne op i j := Binary.getUpcast op.isCmp i j
  one i t v := if i ≤ 10 then (Binary.convertSingle i v.num t).map ofScal else some (toType t v)

/-- Arrays for concrete calls (no part of the code): int32 `[1, 2, 3]`, a view `[2, 3]` of it and one `[1, 2]`, float64 `[1/2, 3/2, 5/2]`,
int32 `[10]`, `[4, 6]` as long and as long long, and int32 `[7, 8]` of a class derived from `FastArray`; `oom` tells which allocations
succeed. -/
def sample (oom : List Bool) : World Rat :=
  { objs := [⟨5, 0, 0, 3, 1, true, 1⟩, ⟨5, 0, 1, 2, 1, true, 1⟩, ⟨12, 1, 0, 3, 1, true, 1⟩, ⟨5, 2, 0, 1, 1, true, 1⟩,
      ⟨7, 3, 0, 2, 1, true, 1⟩, ⟨9, 3, 0, 2, 1, true, 1⟩, ⟨5, 4, 0, 2, 1, false, 1⟩, ⟨5, 0, 0, 2, 1, true, 1⟩],
    mem := [[1, 2, 3], [1/2, 3/2, 5/2], [10], [4, 6], [7, 8]], oom := oom }

end Riptide.Hook
