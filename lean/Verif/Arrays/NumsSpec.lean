import Verif.Arrays.Nums
import Verif.Mask.CallSpec
/-! What an array of numbers holds: its numbers, in the order in which numpy lists them. -/
namespace Riptide.Nums
open Riptide.Binary Riptide.Mask.Call.Spec

/-- The bytes of a number, the lowest first. -/
def bytesOf : Nat → Nat → List (BitVec 8)
  | 0, _ => []
  | w + 1, n => BitVec.ofNat 8 n :: bytesOf w (n / 256)

/-- The memory has these bytes from `o` on. -/
def Has (m : Mem) (o : Int) (l : List (BitVec 8)) : Prop := ∀ j : Nat, j < l.length → m (o + j) = l[j]?

/-- The item at `o` is this pattern of `w` bytes. -/
def HasBits (w : Nat) (swapped : Bool) (m : Mem) (o : Int) (b : Nat) : Prop :=
  b < 256 ^ w ∧ Has m o (if swapped then (bytesOf w b).reverse else bytesOf w b)

/-- The item at `o` is this integer. -/
def HasInt (t : IT) (swapped : Bool) (m : Mem) (o : Int) (v : Int) : Prop :=
  t.InRange v ∧ HasBits (t.bits / 8) swapped m o (v % 2 ^ t.bits).toNat

/-- The items at these places are these. -/
def AllAt {β : Type} (P : Int → β → Prop) : List Int → List β → Prop
  | [], [] => True
  | o :: os, x :: xs => P o x ∧ AllAt P os xs
  | _, _ => False

/-- The array holds these integers, in the order in which numpy lists them. -/
def Ints (t : IT) (a : Arr) (m : Mem) (vs : List Int) : Prop := AllAt (HasInt t a.swapped m) (inC a.lay.dims a.lay.strides) vs

/-- The array holds these patterns of `w` bytes, in the order in which numpy lists them. -/
def Bits (w : Nat) (a : Arr) (m : Mem) (vs : List Nat) : Prop := AllAt (HasBits w a.swapped m) (inC a.lay.dims a.lay.strides) vs

/-- An array whose items lie one after the other in C order, in the order of bytes of the machine. -/
def Plain (a : Arr) : Prop := a.lay.strides.length = a.lay.dims.length ∧ a.lay.cContig = true ∧ a.swapped = false

/-- Memory with the given bytes from `first` on. -/
def memOf (first : Int) (l : List (BitVec 8)) : Mem := fun o => if first ≤ o then l[(o - first).toNat]? else none

/-- Integers one after the other, the first of them at `first`. -/
def intMem (t : IT) (first : Int) (l : List Int) : Mem := memOf first (l.flatMap fun v => bytesOf (t.bits / 8) (v % 2 ^ t.bits).toNat)

/-- Patterns one after the other. -/
def bitMem (w : Nat) (first : Int) (l : List Nat) : Mem := memOf first (l.flatMap (bytesOf w))

instance (m : Mem) (o : Int) (l : List (BitVec 8)) : Decidable (Has m o l) := inferInstanceAs (Decidable (∀ j : Nat, j < l.length → _))
instance (w : Nat) (sw : Bool) (m : Mem) (o : Int) (b : Nat) : Decidable (HasBits w sw m o b) := inferInstanceAs (Decidable (_ ∧ _))
instance (t : IT) (sw : Bool) (m : Mem) (o : Int) (v : Int) : Decidable (HasInt t sw m o v) := inferInstanceAs (Decidable (_ ∧ _))
instance decAllAt {β : Type} (P : Int → β → Prop) [∀ o x, Decidable (P o x)] : ∀ os xs, Decidable (AllAt P os xs)
  | [], [] => isTrue trivial
  | _ :: os, _ :: xs => @instDecidableAnd _ _ _ (decAllAt P os xs)
  | [], _ :: _ => isFalse id
  | _ :: _, [] => isFalse id
instance (t : IT) (a : Arr) (m : Mem) (vs : List Int) : Decidable (Ints t a m vs) := decAllAt _ _ vs
instance (w : Nat) (a : Arr) (m : Mem) (vs : List Nat) : Decidable (Bits w a m vs) := decAllAt _ _ vs
instance (a : Arr) : Decidable (Plain a) := inferInstanceAs (Decidable (_ ∧ _ ∧ _))

end Riptide.Nums
