import Verif.Arrays.StackCall
import Verif.Arrays.InfoSpec
import Verif.Convert.CallSpec
/-! What joining arrays and giving them one type should do (C156). -/
namespace Riptide.Nums.Stack.Spec
open Riptide.Nums Riptide.Nums.Info
open Riptide.Convert.Call.Spec (whole real size)
open Riptide.Convert.Call (Wide)
open Riptide.Convert.Spec (IntOk Exact)

/-- A value of the type: an integer in its range, 0 or 1 for booleans, a pattern for the rest. -/
def Value (ty : Nat) (v : Int) : Prop :=
  match whole ty with
  | some t => t.InRange v
  | none => if ty = 0 then v = 0 ∨ v = 1 else 0 ≤ v ∧ v < 2 ^ (8 * size ty)

/-- The item at `o` is this value of the type. -/
def HasVal (ty : Nat) (swapped : Bool) (m : Mem) (o v : Int) : Prop :=
  Value ty v ∧ HasBits (size ty) swapped m o (v % 2 ^ (8 * size ty)).toNat

/-- The array holds these values, in the order in which numpy lists them. -/
def Vals (a : Arr) (m : Mem) (vs : List Int) : Prop := AllAt (HasVal a.type a.swapped m) (Riptide.Mask.Call.Spec.inC a.lay.dims a.lay.strides) vs

/-- The array holds these strings of bytes. -/
def Strs (a : Arr) (m : Mem) (xs : List (List (BitVec 8))) : Prop :=
  AllAt (fun o x => x.length = a.lay.item ∧ Has m o x) (Riptide.Mask.Call.Spec.inC a.lay.dims a.lay.strides) xs

/-- An array of numbers of one dimension with these values. A slice of one item is excepted unless its distance is the size of an item. -/
structure Numbers (a : Arr) (m : Mem) (vs : List Int) : Prop where
  oneDim : ∃ n, OneDim a n
  type : a.type ≤ 13
  item : a.lay.item = size a.type
  native : a.swapped = false
  vals : Vals a m vs

/-- An array of strings of one dimension, or of more dimensions in C order, with these strings. -/
structure Texts (ty : Nat) (a : Arr) (m : Mem) (xs : List (List (BitVec 8))) : Prop where
  shape : (∃ n, OneDim a n) ∨ 2 ≤ a.lay.dims.length ∧ a.lay.strides.length = a.lay.dims.length ∧ a.lay.cContig = true
  type : a.type = ty
  strs : Strs a m xs

/-- What a value `x` of the type `ti` is in the type `to`: the same value if there is one, invalid for invalid. Two float types are converted by the machine. -/
inductive Carried (w : Wide) : Nat → Nat → Int → Int → Prop
  | same (ty : Nat) (x : Int) : Carried w ty ty x x
  | ints {ti to : Nat} {s d : IT} {x y : Int} : whole ti = some s → whole to = some d → ti ≠ to → IntOk s d x y → d.InRange y → Carried w ti to x y
  | boolToInt {to : Nat} {d : IT} {x : Int} : whole to = some d → Carried w 0 to x x
  | intToBool {ti : Nat} {s : IT} {x : Int} : whole ti = some s → Carried w ti 0 x (if x = 0 then 0 else 1)
  | intToFloat {ti to : Nat} {s : IT} {f : FT} {x : Int} {y : Nat} : whole ti = some s → real to = some f → (x = s.inv → f.isNan y = true) →
      (x ≠ s.inv → x.natAbs < 2 ^ (f.mb + 1) → Exact f y x) → Carried w ti to x y
  | boolToFloat {to : Nat} {f : FT} {x : Int} {y : Nat} : real to = some f → Exact f y x → Carried w 0 to x y
  | floatToBool {ti : Nat} {f : FT} {x : Nat} : real ti = some f → Carried w ti 0 x (if f.eq x 0 = true then 0 else 1)
  | floatToInt {ti to : Nat} {f : FT} {d : IT} {x : Nat} {y : Int} : real ti = some f → whole to = some d → (f.isFinite x = false → y = d.inv) →
      (f.isFinite x = true → y = f.trunc x) → Carried w ti to x y
  | up {x y : Int} : w.conv .f32 .f64 x = some y → Carried w 11 12 x y
  | down {x y : Int} : w.conv .f64 .f32 x = some y → Carried w 12 11 x y

/-- The value has a counterpart: a finite float one which is an integer of the type. `long double` is only copied. -/
def Able (w : Wide) (ti to : Nat) (x : Int) : Prop :=
  ti = to ∨ ti ≤ 12 ∧ to ≤ 12 ∧
    (∀ f d, real ti = some f → whole to = some d → f.isFinite x.toNat = true → d.InRange (f.trunc x.toNat)) ∧
    (∀ f g, real ti = some f → real to = some g → (w.conv .f32 .f64 x).isSome = true ∧ (w.conv .f64 .f32 x).isSome = true)

/-- The lists are item by item in the relation. -/
def Each {α β : Type} (R : α → β → Prop) (l : List α) (k : List β) : Prop :=
  k.length = l.length ∧ ∀ (i : Nat) x y, l[i]? = some x → k[i]? = some y → R x y

end Riptide.Nums.Stack.Spec
