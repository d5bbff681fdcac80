import Verif.Shm.ReadOnly
/-! # What making an array read-only should do -/
namespace Riptide.Shm.ReadOnly.Spec

/-- `q` is the array `p` or an array found from it by going from arrays to their bases. -/
inductive Under (mem : List Arr) : Nat → Nat → Prop
  | self (p : Nat) : Under mem p p
  | base (p q r : Nat) (a : Arr) (h : mem[p]? = some a) (hb : a.base = .array q) (hr : Under mem q r) : Under mem p r

/-- `q` is an array which is no view of another one. -/
def Root (mem : List Arr) (q : Nat) : Prop := ∃ a : Arr, mem[q]? = some a ∧ ∀ r, a.base ≠ .array r

/-- Views are made of arrays which are there already. -/
def Older (mem : List Arr) : Prop := ∀ (p : Nat) (a : Arr) (q : Nat), mem[p]? = some a → a.base = .array q → q < p

/-- The array at `q` cannot be written through. -/
def ReadOnly (mem : List Arr) (q : Nat) : Prop := ∃ a : Arr, mem[q]? = some a ∧ a.writeable = false

end Riptide.Shm.ReadOnly.Spec
