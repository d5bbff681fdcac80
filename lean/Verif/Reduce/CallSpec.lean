import Verif.Reduce.Call
import Verif.Reduce.Spec
/-! What is passed to `Reduce`. -/
namespace Riptide.Reduce

/-- The numbers of numpy's types of integers on Linux and the integers they stand for; booleans are bytes. -/
def intTypes : List (Int × IT) :=
  [(0, .i8), (1, .i8), (2, .u8), (3, .i16), (4, .u16), (5, .i32), (6, .u32), (7, .i64), (8, .u64), (9, .i64), (10, .u64)]

/-- The numbers of numpy's types of floats. -/
def fltTypes : List (Int × FT) := [(11, .f32), (12, .f64)]

/-- An array with items, which lie one after the other along its first dimension. -/
structure Flat (a : Arr) : Prop where
  shape : ∃ d ds s ss, a.lay.dims = d :: ds ∧ a.lay.strides = s :: ss ∧ (d ≤ 1 ∨ s = (a.lay.item : Int))
  len : a.data.length = a.lay.len
  ne : a.data ≠ []

/-- Numbers of functions the header file names, `src/Reduce.h:6-35`. -/
def named : List Nat := [0, 1, 102, 103, 106, 107, 108, 109, 200, 201, 202, 203, 204, 205, 206, 207, 210]

end Riptide.Reduce
