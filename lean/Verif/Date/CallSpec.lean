import Verif.Mask.CallSpec
import Verif.Date.Call
/-! What an array of strings holds: the texts of its items, in the order in which numpy lists them. -/
namespace Riptide.Date.Call.Spec
open Riptide.Binary Riptide.Mask.Call.Spec

/-- The bytes of a number, the lowest first. -/
def bytesOf : Nat → Nat → List (BitVec 8)
  | 0, _ => []
  | w + 1, n => BitVec.ofNat 8 n :: bytesOf w (n / 256)

/-- The character `c` of an item: one byte, which is a signed number, or four bytes in one or the other order. -/
def encode (k : Kind) (swapped : Bool) (c : Int) : List (BitVec 8) :=
  match k with
  | .unicode => if swapped then (bytesOf 4 c.toNat).reverse else bytesOf 4 c.toNat
  | _ => [BitVec.ofInt 8 c]

/-- A number which is a character of this type. -/
def IsChar (k : Kind) (c : Int) : Prop :=
  match k with
  | .unicode => 0 ≤ c ∧ c < 4294967296
  | _ => -128 ≤ c ∧ c < 128

/-- The memory has these bytes from `o` on. -/
def Has (m : Mem) (o : Int) (l : List (BitVec 8)) : Prop := ∀ j : Nat, j < l.length → m (o + j) = l[j]?

/-- An item with the text `t` begins at `o`. -/
def Holds (a : Arr) (m : Mem) (o : Int) (t : List Int) : Prop :=
  t.length * width a.kind = a.lay.item ∧ (∀ c ∈ t, IsChar a.kind c) ∧ Has m o (t.flatMap (encode a.kind a.swapped))

/-- The items at these places have these texts. -/
def HoldsAll (a : Arr) (m : Mem) : List Int → List (List Int) → Prop
  | [], [] => True
  | o :: os, t :: ts => Holds a m o t ∧ HoldsAll a m os ts
  | _, _ => False

/-- The array has these texts, in C order. -/
def Texts (a : Arr) (m : Mem) (ts : List (List Int)) : Prop := HoldsAll a m (inC a.lay.dims a.lay.strides) ts

/-- The array has these texts, in Fortran order. -/
def TextsF (a : Arr) (m : Mem) (ts : List (List Int)) : Prop := HoldsAll a m (inF a.lay.dims a.lay.strides) ts

end Riptide.Date.Call.Spec
