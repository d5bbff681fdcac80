import Verif.Bins.Call
import Verif.Bins.Spec
import Verif.Convert.CallSpec
/-! # What a search call should answer (C139)

Numbers are rational or infinite; types are described by their numbers, independently of the tables of the code. -/
namespace Riptide.Bins.Call.Spec
open Riptide.Binary
open Riptide.Convert.Call (Arr)
open Riptide.Convert.Call.Spec (At)

/-- A number or an infinity. -/
inductive Ext where
  | ninf
  | fin (q : Rat)
  | pinf
  deriving DecidableEq

/-- The order of the numbers, with the infinities at the ends. -/
def Ext.lt : Ext → Ext → Bool
  | .ninf, .ninf => false
  | .ninf, _ => true
  | .fin a, .fin b => decide (a < b)
  | .fin _, .pinf => true
  | _, _ => false

/-- The integer type with a number; `bool` is stored like `int8_t`. -/
def whole (ty : Nat) : Option IT :=
  if ty ≤ 10 then some ⟨if ty ≤ 2 then 8 else if ty ≤ 4 then 16 else if ty ≤ 6 then 32 else 64, decide (ty % 2 = 1 ∨ ty = 0)⟩ else none

/-- The format of the floating point type with a number. -/
def real (ty : Nat) : Option FT :=
  if ty = 11 then some ⟨8, 23⟩ else if ty = 12 then some ⟨11, 52⟩ else if ty = 13 then some ⟨15, 63⟩ else none

/-- The number a bit pattern of a format stands for; nothing for a NaN. -/
def floatVal (f : FT) (b : Nat) : Option Ext :=
  if f.isNan b then none
  else if f.isFinite b then some (.fin ((f.scaled b : Rat) / ((2 ^ f.unit : Nat) : Rat)))
  else some (if f.neg b then .ninf else .pinf)

/-- The number an item stands for. -/
def number (ty : Nat) (x : Int) : Option Ext :=
  match whole ty, real ty with
  | some _, _ => some (.fin x)
  | none, some f => floatVal f x.toNat
  | none, none => none

/-- The items a type has. -/
def Item (ty : Nat) (x : Int) : Prop :=
  match whole ty, real ty with
  | some t, _ => t.InRange x
  | none, some f => 0 ≤ x ∧ x < (2 ^ (1 + f.eb + f.mb) : Nat)
  | none, none => False

/-- The type has the number. -/
def Has (ty : Nat) (q : Ext) : Prop := ∃ y, Item ty y ∧ number ty y = some q

/-- The number of bins below a value, or below and equal to it; a NaN is above all of them, as in numpy. -/
def point (eq : Bool) (bins : List Ext) : Option Ext → Nat
  | some v => (bins.filter fun b => if eq then !v.lt b else b.lt v).length
  | none => bins.length

/-- A value which can be in a bin: not the invalid integer, not infinite or a NaN. -/
def Proper (ty : Nat) (x : Int) : Prop :=
  match whole ty, real ty with
  | some t, _ => ty = 0 ∨ x ≠ t.inv
  | none, some f => f.isFinite x.toNat = true
  | none, none => False

/-- The answer for one value: its bin (mode 0), or the insertion point on the left (1) or on the right (2). -/
def Right (m : Int) (ty : Nat) (bins : List Ext) (x : Int) (r : Int) : Prop :=
  (m = 0 → (¬ Proper ty x → r = 0) ∧ (Proper ty x → ∀ q, number ty x = some q → Bins.Spec.IsBin (fun a b => a.lt b = true) bins q r)) ∧
  (m = 1 → r = point false bins (number ty x)) ∧ (m = 2 → r = point true bins (number ty x))

/-- The bins are in order: rising for cuts. -/
def Ordered (m : Int) (bins : List Ext) : Prop :=
  bins.Pairwise fun a b => if m = 0 then a.lt b = true else b.lt a = false

/-- The array has one dimension without gaps, and its items stand for these numbers. -/
structure Bins (b : Arr) (bins : List Ext) : Prop where
  shape : b.lay.dims = [bins.length] ∧ b.lay.strides = [(b.lay.item : Int)]
  items : ∀ (i : Nat) (q : Ext), bins[i]? = some q → ∃ x, At b [i] = some x ∧ Item b.ty x ∧ number b.ty x = some q

/-- The array is in C or in Fortran order and inside of its memory. -/
structure Packed (a : Arr) : Prop where
  order : a.lay.cContig = true ∨ a.lay.fContig = true
  strides : a.lay.strides.length = a.lay.dims.length
  items : ∀ idx, InBounds idx a.lay.dims → ∃ x, At a idx = some x ∧ Item a.ty x

/-- The shape of the result. -/
def shape (a : Arr) : List Nat := if a.lay.dims = [] then [1] else a.lay.dims

/-- The reply is an array of integers of `size` bytes with the shape of the values, and the item at every index is in the relation `R` with the value there. -/
def Answers (a : Arr) (size : Nat) (R : Int → Int → Prop) : Reply → Prop
  | .done ty lay items => whole ty = some ⟨8 * size, true⟩ ∧ lay.dims = shape a ∧ lay.item = size ∧ items.length = a.lay.len ∧
      ∀ idx, InBounds idx a.lay.dims → ∃ x y, At a idx = some x ∧
        (items[(offs idx lay.strides).toNat / lay.item]?).join = some y ∧ R x y
  | _ => False

end Riptide.Bins.Call.Spec
