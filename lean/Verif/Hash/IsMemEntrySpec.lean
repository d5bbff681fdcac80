import Verif.Hash.CategoricalSpec
/-! # What a membership call has to answer -/
namespace Riptide.Hash.Spec

/-- Every element has its answer: whether some item of `b` is the same, and the first such item; `bad` where there is none. -/
def Answers {K : Type} (same : K → K → Prop) (a b : List K) (bad : Int) (out : List (Bool × Int)) : Prop :=
  out.length = a.length ∧ ∀ (i : Nat) x r, a[i]? = some x → out[i]? = some r → IsAnswer (fun y => same y x) b bad r.1 r.2

/-- The type of positions in arrays of up to `n` elements. -/
def IndexFor (n : Nat) (t : IT) : Prop :=
  (n < 100 ∧ t = .i8) ∨ (100 ≤ n ∧ n < 30000 ∧ t = .i16) ∨ (30000 ≤ n ∧ n < 2000000000 ∧ t = .i32) ∨ (2000000000 ≤ n ∧ t = .i64)

/-- The hash mode and the hint that the numbers after the arrays stand for: mode 2 and no hint unless they are given. -/
def Passed (nums : List Int) (mode : Int) (hint : Nat) : Prop :=
  (-2147483648 ≤ mode ∧ mode < 2147483648 ∧ hint ≤ 2 ^ 59) ∧
  ((nums = [] ∧ mode = 2 ∧ hint = 0) ∨ (nums = [mode] ∧ hint = 0) ∨ nums = [mode, (hint : Int)])

/-- There is room for `d` different items when `want` are expected; `factor` is 2, or 8 for floats. -/
def RoomFor (mode : Int) (factor want d : Nat) : Prop :=
  (mode = 2 ∧ (d < 65536 ∨ d < factor * want)) ∨ (mode = 1 ∧ d ≤ want ∧ want < 68719476731) ∨ (mode ≠ 1 ∧ mode ≠ 2 ∧ (d < want ∨ d = 0))

end Riptide.Hash.Spec
