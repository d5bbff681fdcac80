import Verif.Stack.Convert
/-! # What the items of columns stand for -/
namespace Riptide.Stack

/-- What an item stands for: nothing, a number, an infinity. -/
inductive Value where
  | invalid
  | num (v : Rat)
  | inf (neg : Bool)
  deriving DecidableEq

/-- The value of an item with these bits. -/
def value : Item → Nat → Value
  | .bool, n => .num n
  | .int t, n => if ofBits t n = t.inv then .invalid else .num (ofBits t n)
  | .float f, n =>
    if f.isNan n then .invalid
    else if f.isFinite n then .num ((f.scaled n : Rat) / (2 ^ f.unit : Nat))
    else .inf (f.neg n)

/-- Item `i` of memory with items of `k` bytes. -/
def item (k : Nat) (m : List Nat) (i : Nat) : Nat := Riptide.Sds.unle ((m.drop (i * k)).take k)

/-- Piece `i` of memory with pieces of `k`. -/
def piece {α : Type} (k : Nat) (m : List α) (i : Nat) : List α := (m.drop (i * k)).take k

end Riptide.Stack
