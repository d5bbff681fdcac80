import Verif.Convert.Call
import Verif.Convert.Spec
import Verif.Binary.LayoutProps
/-! # What `ConvertSafe` and `ConvertUnsafe` should return (C135)

Types are described by their numbers, independently of the tables of the code. -/
namespace Riptide.Convert.Call.Spec
open Riptide.Binary

/-- The integer types of numpy: signed ones have odd numbers. -/
def whole (ty : Nat) : Option IT :=
  if 1 ≤ ty ∧ ty ≤ 10 then some ⟨if ty ≤ 2 then 8 else if ty ≤ 4 then 16 else if ty ≤ 6 then 32 else 64, decide (ty % 2 = 1)⟩ else none

/-- The float types of 32 and 64 bits. -/
def real (ty : Nat) : Option FT := if ty = 11 then some .f32 else if ty = 12 then some .f64 else none

/-- Size of an item in bytes. -/
def size (ty : Nat) : Nat :=
  if ty ≤ 2 then 1 else if ty ≤ 4 then 2 else if ty ≤ 6 ∨ ty = 11 then 4 else if ty = 13 then 16 else 8

/-- The item of an array at an index. -/
def At (a : Arr) (idx : List Nat) : Option Int := a.mem (offs idx a.lay.strides)

/-- The item of the result at an index. -/
def outAt (lay : Lay) (items : List (Option Int)) (idx : List Nat) : Option Int :=
  (items[(offs idx lay.strides).toNat / lay.item]?).join

/-- The reply is an array of the type `ty` and the shape `dims`, whose item at every index of the input is in the relation `R` with the
item of the input. -/
def Gives (a : Arr) (ty : Nat) (dims : List Nat) (R : Int → Int → Prop) : Reply → Prop
  | .done ty' lay items => ty' = ty ∧ lay.dims = dims ∧ lay.item = size ty ∧ items.length = a.lay.len ∧
      (lay.cContig = true ∨ lay.fContig = true) ∧ (a.lay.fContig = true → lay.fContig = true) ∧
      ∀ idx, InBounds idx a.lay.dims → ∃ x y, At a idx = some x ∧ outAt lay items idx = some y ∧ R x y
  | _ => False

/-- The array is inside of its memory, and has items. -/
structure Sound (a : Arr) : Prop where
  strides : a.lay.strides.length = a.lay.dims.length
  item : 0 < a.lay.item
  items : a.lay.len ≠ 0
  mem : ∀ idx, InBounds idx a.lay.dims → ∃ x, At a idx = some x

/-- The item at every index has the property. -/
def All (a : Arr) (P : Int → Prop) : Prop := ∀ idx x, InBounds idx a.lay.dims → At a idx = some x → P x

end Riptide.Convert.Call.Spec
