import Verif.Ema.Entry
import Verif.Ema.Spec
/-! # What `EmaAll32` should accept and return (C134)

Types are described by their items, independently of the tables of the code. -/
namespace Riptide.Ema.Entry.Spec
open Riptide.Ema.Entry

/-- The elements of the array are one after the other in memory. -/
def Flat (a : Arr) : Prop := a.mem.take a.vals.length = a.vals

/-- The entries of the first argument. -/
def entries : Cols → List Obj
  | .one a => [.arr a]
  | .many l => l
  | .other => []

/-- The elements of an object; `None` has none. -/
def elems : Obj → List Int
  | .arr a => a.vals
  | _ => []

/-- The type of a column; `None` counts as a boolean column. -/
def tyOf : Obj → Nat
  | .arr a => a.ty
  | _ => 0

/-- The object can be a column: `None` or an array of one dimension of a basic type. -/
def IsColumn : Obj → Prop
  | .pyNone => True
  | .arr a => a.ty ≤ 20 ∧ a.dims = 1
  | .other => False

/-- The object can be a mask of `n` rows: `None` or booleans. -/
def IsMask (n : Nat) : Obj → Prop
  | .pyNone => True
  | .arr a => a.ty = 0 ∧ a.vals.length = n
  | .other => False

/-- The object can be the time of `n` rows: `None` or numbers of at least 32 bits. -/
def IsTime (n : Nat) : Obj → Prop
  | .pyNone => True
  | .arr a => 5 ≤ a.ty ∧ a.ty ≤ 13 ∧ a.vals.length = n
  | .other => False

/-- The types of the keys: signed integers. -/
def isKey (ty : Nat) : Bool := ty % 2 == 1 && decide (ty < 10)

/-- The first argument is an array or a list or tuple of columns with equally many rows. -/
def GoodCols (cols : Cols) : Prop :=
  cols ≠ .other ∧ (∀ o ∈ entries cols, IsColumn o) ∧
    ∀ o ∈ entries cols, ∀ p ∈ entries cols, (elems o).length = (elems p).length

/-- The arguments of a call as they should be; the key has `a.vals.length` rows. -/
structure Good (r : Req) (a : Arr) (uniq func number : Int) (time inc rst : Obj) : Prop where
  key : r.key = .arr a
  keyTy : isKey a.ty = true
  uniq : r.uniq = some uniq ∧ -2 ^ 63 ≤ uniq ∧ uniq < 2 ^ 63
  func : r.func = some func ∧ -2 ^ 63 ≤ func ∧ func < 2 ^ 63
  params : r.params = .four (some number) time inc rst
  time : IsTime a.vals.length time
  inc : IsMask a.vals.length inc
  rst : IsMask a.vals.length rst
  cols : GoodCols r.cols

/-- None of the entries of the last argument is something else than `None` or an array. -/
def ArraysOnly : Params → Prop
  | .four _ time inc rst => time ≠ .other ∧ inc ≠ .other ∧ rst ≠ .other
  | _ => True

/-- What is needed beside `Good` for the functions to stay inside of their arrays: columns, not shorter than the key; no step in
the key, the masks and the time; keys not above `uniq`. -/
structure Sound (r : Req) (a : Arr) (uniq : Nat) (func number : Int) (time inc rst : Obj) : Prop where
  good : Good r a uniq func number time inc rst
  any : entries r.cols ≠ []
  long : ∀ o ∈ entries r.cols, a.vals.length ≤ (elems o).length
  keyFlat : Flat a
  timeFlat : ∀ b, time = .arr b → Flat b
  incFlat : ∀ b, inc = .arr b → Flat b
  rstFlat : ∀ b, rst = .arr b → Flat b
  le : ∀ k ∈ a.vals, k ≤ uniq

/-- The key of row `i`. -/
def K (a : Arr) (i : Nat) : Int := a.vals.getD i 0

/-- Row `i` of a mask, `d` without a mask. -/
def flag (d : Bool) (o : Obj) (i : Nat) : Bool :=
  match o with
  | .arr a => ((a.vals.map (· != 0))[i]?).getD d
  | _ => d

/-- The values of a column which count at row `i`. -/
def counted (a : Arr) (inc rst : Obj) (o : Obj) (i : Nat) : List Int :=
  (Riptide.Ema.Spec.live (K a) (flag true inc) (flag false rst) i).map fun j => (elems o).getD j 0

/-- Whole numbers of a numpy type; booleans are bytes. -/
def whole (ty : Nat) : Option IT :=
  if ty = 0 then some .i8
  else if ty ≤ 10 then
    some ⟨if ty ≤ 8 then 2 ^ ((ty - 1) / 2) * 8 else 64, ty % 2 == 1⟩
  else none

/-- Floating-point numbers of a numpy type, without `long double`. -/
def real (ty : Nat) : Option FT := if ty = 11 then some .f32 else if ty = 12 then some .f64 else none

/-- The 64-bit type of sums and products. -/
def sumTy (t : IT) : Nat := if t.signed then 7 else 8

/-- Which items of a type count as valid, and their order. -/
def order (ty : Nat) : Option ((Int → Bool) × (Int → Int → Bool)) :=
  match whole ty, real ty with
  | some t, _ => some (fun x => decide (x ≠ t.inv), fun x y => decide (x < y))
  | none, some f => some (fun x => !f.isNan x.toNat, fun x y => f.lt x.toNat y.toNat)
  | none, none => none

/-- What the extremes should give for the listed values: the largest (306, 308) or smallest (307, 309) one, invalid values left
out (306, 307) or decisive (308, 309). -/
def Extreme (func : Int) (valid : Int → Bool) (less : Int → Int → Bool) (vals : List Int) (v : Int) : Prop :=
  let better := fun x y => if func = 306 ∨ func = 308 then less y x else less x y
  if func ≤ 307 then Riptide.Ema.Spec.NanBest valid better vals v else Riptide.Ema.Spec.StrictBest valid better vals v

/-- What the numbers of the functions stand for (`src/Ema.h:23-35`). -/
def named : List (Int × Name) :=
  [(300, .cumSum), (301, .decay), (302, .cumProd), (303, .findNth), (304, .normal), (305, .weighted), (306, .nanMax),
    (307, .nanMin), (308, .max), (309, .min)]

end Riptide.Ema.Entry.Spec
