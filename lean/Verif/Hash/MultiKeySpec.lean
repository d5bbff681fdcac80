import Verif.Hash.MultiKey
import Verif.Hash.Spec
/-! # Rows of several arrays -/
namespace Riptide.Hash.Spec

/-- The array is as `numpy` has it: all bytes of its items. -/
def IsArray (n : Nat) (c : KeyCol) : Prop := c.rows = n ∧ c.data.length = n * c.width

/-- Item `i` of an array. -/
def item (c : KeyCol) (i : Nat) : List UInt8 := (c.data.drop (i * c.width)).take c.width

/-- The rows of some arrays: in each row, an item of every array. -/
def rowsOf (cols : List KeyCol) (n : Nat) : List (List (List UInt8)) := (List.range n).map fun i => cols.map fun c => item c i

/-- A key is passed such that no key is taken for a filter. -/
def NoFilter : KeyArg → Prop
  | .list _ => True
  | .tuple cs => ∀ c, cs[2]? = some c → c.isBool = true

end Riptide.Hash.Spec
