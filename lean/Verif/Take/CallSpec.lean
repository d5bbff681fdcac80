import Verif.Take.Spec
import Verif.Common.Num
import Verif.Binary.Layout
import Verif.Take.Call
/-! What `mbget` should answer: the items which Python's rules for indices select from the items of the values, one after the other, and for an index
out of range the default. -/
namespace Riptide.Take.Call.Spec
open Riptide.Binary Riptide.Take

/-- The bytes of a number of `n` bytes, the lowest first. -/
def enc : Nat → Int → List Byte
  | 0, _ => []
  | n + 1, v => BitVec.ofInt 8 v :: enc n (v / 256)

/-- The item of `n` bytes which begins at the byte `o`. -/
def itemAt (vals : Int → Byte) (n : Nat) (o : Int) : List Byte := (List.range n).map fun (k : Nat) => vals (o + k)

/-- The kinds of values: bools, integers, floats, the long double, and texts. -/
inductive Ty where
  | bool
  | int (t : IT)
  | flt (f : FT)
  | long
  | text

/-- The types of numpy, by number; dates, complex numbers, objects, records and half floats are left out. -/
def ty : Nat → Option Ty
  | 0 => some .bool
  | 1 => some (.int .i8)
  | 2 => some (.int .u8)
  | 3 => some (.int .i16)
  | 4 => some (.int .u16)
  | 5 => some (.int .i32)
  | 6 => some (.int .u32)
  | 7 => some (.int .i64)
  | 8 => some (.int .u64)
  | 9 => some (.int .i64)
  | 10 => some (.int .u64)
  | 11 => some (.flt .f32)
  | 12 => some (.flt .f64)
  | 13 => some .long
  | 18 => some .text
  | 19 => some .text
  | _ => none

/-- What stands for a missing item: riptide's invalid value of the type. -/
def invalid (item : Nat) : Ty → List Byte
  | .bool => [0#8]
  | .int t => enc (t.bits / 8) t.inv
  | .flt f => enc ((1 + f.eb + f.mb) / 8) f.qnan
  | .long => enc 16 (2 ^ 79 - 2 ^ 62)
  | .text => List.replicate item 0#8

/-- The bytes of the integer `v` as an item: `none` if the type does not hold integers, or not this one. Floats hold all, rounded. -/
def ofNumber (v : Int) : Ty → Option (List Byte)
  | .bool => if v = 0 ∨ v = 1 then some (enc 1 v) else none
  | .int t => if t.InRange v then some (enc (t.bits / 8) v) else none
  | .flt f => some (enc ((1 + f.eb + f.mb) / 8) (f.ofInt v))
  | _ => none

/-- The bytes of a float64 as an item: integers take its integer part if they can hold it. -/
def ofFloat (b : Nat) : Ty → Option (List Byte)
  | .int t => (FT.f64.toInt t b).map (enc (t.bits / 8))
  | .flt f => some (enc ((1 + f.eb + f.mb) / 8) (if f = .f64 then b else Bins.Call.convF .f64 f b))
  | _ => none

/-- The item which stands for an index out of range, for the default `d`. `none`: there is no such item. -/
def missing (item : Nat) (y : Ty) : Obj → Option (List Byte)
  | .none => some (invalid item y)
  | .bool b => ofNumber (if b then 1 else 0) y
  | .int v => ofNumber v y
  | .npInt v => ofNumber v y
  | .float b => ofFloat b y
  | _ => none

/-- The size of an item of the type; texts have any. -/
def HasSize (item : Nat) : Ty → Prop
  | .bool => item = 1
  | .int t => item = t.bits / 8
  | .flt f => item = (1 + f.eb + f.mb) / 8
  | .long => item = 16
  | .text => 0 < item

end Riptide.Take.Call.Spec
