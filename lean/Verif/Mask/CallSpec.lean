import Verif.Mask.Spec
import Verif.Binary.Layout
/-! What the calls on masks should answer: the items of an array of any shape are listed in the order in which numpy lists them (the last index
runs fastest), and the mask selects from that list. -/
namespace Riptide.Mask.Call.Spec
open Riptide.Binary

/-- Where the items are, in C order: the last index runs fastest. -/
def inC : List Nat → List Int → List Int
  | d :: ds, s :: ss => (List.range d).flatMap fun (i : Nat) => (inC ds ss).map fun o => (i : Int) * s + o
  | _, _ => [0]

/-- Where the items are, in Fortran order: the first index runs fastest. -/
def inF : List Nat → List Int → List Int
  | d :: ds, s :: ss => (inF ds ss).flatMap fun o => (List.range d).map fun (i : Nat) => (i : Int) * s + o
  | _, _ => [0]

/-- The places are `0, s, 2s, …`. -/
def Even (s : Int) (l : List Int) : Prop := ∀ k : Nat, k < l.length → l[k]? = some ((k : Int) * s)

/-- The flags at the given places. -/
def flags (m : Int → BitVec 8) (l : List Int) : List Bool := l.map fun o => decide (m o ≠ 0#8)

/-- The first and the last dimension have more than one item, or the items are packed. -/
def Ends (a : Lay) (s : Int) : Prop := s = a.item ∨ (1 < a.dims.headD 0 ∧ 1 < a.dims.getLastD 0)

/-- Every dimension has more than one item. -/
def Full (a : Lay) : Prop := ∀ d ∈ a.dims, 1 < d

end Riptide.Mask.Call.Spec
