import Verif.Hook.Two
/-! # What `BasicMathTwoInputs` should do -/
namespace Riptide.Hook.Two.Spec
open Riptide.Hook Riptide.Hook.Two

variable {V S : Type}

/-- Python takes the answer of a function: a null pointer exactly with an exception. -/
def Proper (a : Ans V) : Prop := a.res = .null ↔ a.exc = true

/-- A number of 64 bits. -/
def IsNum (x : Num) : Prop := ∃ n : Int, x = .int n ∧ -(2 ^ 63) ≤ n ∧ n < 2 ^ 63

/-- Numpy makes an array of it, if it is neither array nor scalar. -/
def Usable (x : Item V S) : Prop := ∀ m, x = .other m → m.isSome

/-- An element as an element of another type; `long` and `long long` are the same. -/
def conv (m : Math V S) (ty t : Nat) (v : V) : V := if ty = t ∨ (ty = 7 ∧ t = 9) ∨ (ty = 8 ∧ t = 10) then v else m.cast ty t v

/-- A new array of a type with given elements is what comes back, and no exception. -/
def IsNew [Inhabited V] (w : World V) (a : Ans V) (t : Nat) (n : Nat) (val : Nat → V) : Prop :=
  ∃ (r : Nat) (o : Obj), a.res = .obj r ∧ a.exc = false ∧ w.objs.length ≤ r ∧ a.world.objs[r]? = some o ∧ o.ty = t ∧ o.len = n ∧ o.refs = 1 ∧
    valsOf a.world o = (List.range n).map val

end Riptide.Hook.Two.Spec
