/-! Specification of boolean-mask operations on plain lists. -/
namespace Riptide.Mask.Spec

/-- Row numbers at which the mask is True, in order. -/
def trueRows (mask : List Bool) : List Nat := (List.range mask.length).filter fun i => mask[i]?.getD false

/-- Row numbers at which the mask is False, in order. -/
def falseRows (mask : List Bool) : List Nat :=
  (List.range mask.length).filter fun i => !(mask[i]?.getD false)

/-- Number of True entries. -/
def numTrue (mask : List Bool) : Nat := mask.countP id

/-- `v[mask]`: the elements whose mask entry is True, in order. -/
def select {α : Type} (vals : List α) (mask : List Bool) : List α :=
  (vals.zip mask).filterMap fun (v, b) => if b then some v else none

end Riptide.Mask.Spec
