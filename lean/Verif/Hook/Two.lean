import Verif.Hook.Model
/-! # Model of the call `BasicMathTwoInputs`, `src/BasicMath.cpp:3499-3535`, with the objects it is given

Arrays and memory are those of `Verif/Hook/Model.lean`.  Here the inputs may also be any other objects, of which numpy makes arrays, both inputs may be scalars, the output may be any
object, and the exception which is set is kept.  The addition of texts (`PossiblyAddUnicode`, 3342-3386) and conversions which fail for want of memory are left out; arrays made of
other objects have one dimension. -/
namespace Riptide.Hook.Two
open Riptide.Hook

/-- What `src/BasicMath.cpp` does with elements (`V`) and scalars (`S`), by the number of the function: the type of the output and the calculation for a mode (0 to 3,
`src/CommonInc.h:385-391`), two types and the type asked for (`CheckMathOpTwoInputs`, 1968-2058); the conversion of elements; the type to which an array is converted for a scalar,
`none` for texts (`PossiblyUpcast`, 2125-2243, with 2487-2495 and 2534-2542); a scalar as an element (`ConvertScalarObject`); the types of two arrays of one length (`CheckUpcast`,
2364-2433), and of an array and a single item (`GetUpcastType`); and a single item as an element (`ConvertSingleItemArray`). -/
structure Math (V S : Type) where
  kernel : Int → Nat → Int → Int → Int → Option (Nat × (V → V → V))
  cast : Nat → Nat → V → V
  up : Int → S → Nat → Option Nat
  scal : S → Int → Option V
  pair : Int → Nat → Nat → Option (Nat × Nat)
  upOne : Int → Nat → Nat → Option (Nat × Nat)
  one : Nat → Nat → V → Option V

/-- An input: an array, a scalar, or something else of which numpy makes an array (type and elements) or raises, `src/BasicMath.cpp:2449-2463` and `2500-2513`. -/
inductive Item (V S : Type) where
  | arr (i : Nat)
  | scal (s : S)
  | other (made : Option (Nat × List V))

/-- The third item of the tuple: an array, or not; `src/BasicMath.cpp:2334-2338` and `2808-2814`. -/
inductive Given where
  | arr (i : Nat)
  | other

/-- An argument which shall be a number, `src/BasicMath.cpp:3512-3513`. -/
inductive Num where
  | int (n : Int)
  | other

/-- What is given instead of the tuple, `src/BasicMath.cpp:3515-3519` and `2307-2338`: no tuple, a tuple of another size, or two inputs and maybe an output. -/
inductive Tuple (V S : Type) where
  | none
  | size (n : Nat)
  | items (a b : Item V S) (out : Option Given)

/-- What comes of a call: the world, what is returned, and whether an exception is set; `src/BasicMath.cpp:3499-3535`. -/
structure Ans (V : Type) where
  world : World V
  res : Res
  exc : Bool

variable {V S : Type} [Inhabited V]

/-- `PyLong_AsLongLong`, `src/BasicMath.cpp:3512-3513`: -1 with an exception for what is no number of 64 bits. -/
def asLong : Num → Int × Bool
  | .int n => if -9223372036854775808 ≤ n ∧ n ≤ 9223372036854775807 then (n, false) else (-1, true)
  | .other => (-1, true)

/-- `(int)`, `src/BasicMath.cpp:3522` and `3409`. -/
def toInt (n : Int) : Int := n.bmod 4294967296

/-- `ConvertSafeInternal` of an input, `src/BasicMath.cpp:2484` and so on: a copy of another type. -/
def convert (m : Math V S) (x : Inp V) (t : Nat) : Inp V := if x.ty = t then x else { x with ty := t, vals := x.vals.map (m.cast x.ty t), place := none }

/-- An array of two of one length in the common type, `src/BasicMath.cpp:2364-2433`: `long` is taken for `long long` without a copy. -/
def toCommon (m : Math V S) (x : Inp V) (t : Nat) : Inp V := if Binary.unamb x.ty = t then { x with ty := t } else convert m x t

/-- An input after the conversions: an array, or a scalar; `src/BasicMath.cpp:2442-2545`. -/
inductive Ready (S : Type) where
  | arr (i : Nat)
  | scal (s : S)

/-- A new array which numpy makes of an object, `src/BasicMath.cpp:2456` and `2506`. -/
def make (w : World V) (ty : Nat) (vals : List V) : World V :=
  { w with objs := w.objs ++ [{ ty := ty, blk := w.mem.length, off := 0, len := vals.length, fast := false }], mem := w.mem ++ [vals] }

/-- An input becomes an array or stays a scalar; with the array to be released. `src/BasicMath.cpp:2449-2463`, `2500-2513`. -/
def ready (w : World V) : Item V S → World V × Option (Ready S × Option Nat)
  | .arr i => (w, some (.arr i, none))
  | .scal s => (w, some (.scal s, none))
  | .other none => (w, none)
  | .other (some (ty, vals)) => (make w ty vals, some (.arr w.objs.length, some w.objs.length))

/-- Release of a temporary array, `src/BasicMath.cpp:2099-2116`. -/
def release (w : World V) : Option Nat → World V
  | none => w
  | some r => decref w r

/-- The inputs as the loop sees them: the mode, both inputs, their types for `CheckMathOpTwoInputs`, and whether `toDelete2` was written over, `src/BasicMath.cpp:2762`. -/
structure Inputs (V : Type) where
  mode : Nat
  x : Inp V
  y : Inp V
  t1 : Int
  t2 : Int
  over : Bool

/-- An array and a scalar, `src/BasicMath.cpp:2464-2497`, `2514-2544`, `2549-2660`: `up` says whether the array may be converted. -/
def withScal (m : Math V S) (w : World V) (f : Int) (up : Bool) (o : Obj) (s : S) : Option (Inp V × Inp V) :=
  (if up then m.up f s o.ty else some o.ty).bind fun t =>
    if t = o.ty ∧ strided o then none else (m.scal s t).map fun v => (convert m (fill w o) t, scalInp t v)

/-- Two arrays, `src/BasicMath.cpp:2587-2790`. -/
def twoArrays (m : Math V S) (w : World V) (f : Int) (o1 o2 : Obj) : Option (Inputs V) :=
  if strided o1 ∨ strided o2 then none
  else if o1.len = o2.len then
    (m.pair f o1.ty o2.ty).map fun (t1, t2) => ⟨0, toCommon m (fill w o1) t1, toCommon m (fill w o2) t2, t1, t2, false⟩
  else if o1.len = 1 ∧ 1 ≤ o2.len then
    (m.upOne f o1.ty o2.ty).bind fun (t1, t2) =>
      (m.one o1.ty t1 ((valsOf w o1).getD 0 default)).map fun v => ⟨1, scalInp t1 v, convert m (fill w o2) t2, t1, t2, false⟩
  else if o2.len = 1 ∧ 1 ≤ o1.len then
    (m.upOne f o1.ty o2.ty).bind fun (t1, t2) =>
      (m.one o2.ty t2 ((valsOf w o2).getD 0 default)).map fun v => ⟨2, convert m (fill w o1) t1, scalInp t2 v, t1, t2, decide (o1.ty ≠ t1)⟩
  else none

/-- Whether an array may be converted for the other input, a scalar, `src/BasicMath.cpp:2464` and `2514`: not if there is an output, and not the second one if it was no array at first. -/
def mayUp (hasOut first : Bool) : Item V S → Bool
  | .arr _ => !hasOut
  | .scal _ => false
  | .other _ => !hasOut && first

/-- `CheckInputsInternal`, `src/BasicMath.cpp:2442-2792`, after numpy made its arrays; `u1` and `u2` say whether the arrays may be converted for a scalar. Two scalars take the type
asked for (2559-2564). -/
def check (m : Math V S) (w : World V) (f outTy : Int) (u1 u2 : Bool) (a b : Ready S) : Option (Inputs V) :=
  match a, b with
  | .arr i, .arr j => match w.objs[i]?, w.objs[j]? with
    | some o1, some o2 => twoArrays m w f o1 o2
    | _, _ => none
  | .arr i, .scal s => (w.objs[i]?).bind fun o => (withScal m w f u1 o s).map fun (x, y) => ⟨2, x, y, x.ty, x.ty, false⟩
  | .scal s, .arr j => (w.objs[j]?).bind fun o => (withScal m w f u2 o s).map fun (x, y) => ⟨1, y, x, x.ty, x.ty, false⟩
  | .scal s, .scal s' => (m.scal s outTy).bind fun v => (m.scal s' outTy).map fun v' => ⟨3, scalInp 0 v, scalInp 0 v', outTy, outTy, false⟩

/-- An output which is used, `src/BasicMath.cpp:2825-2905`; `flat` says that it has no dimension, and then its first dimension is read through a null pointer (2835). -/
def intoOutput (w : World V) (flat : Bool) (g : V → V → V) (x y : Inp V) (r : Nat) (o : Obj) : World V × Res :=
  if o.len < x.len ∨ o.len < y.len then (w, .none)
  else if flat then (w, .crash)
  else if strided o then (w, .none)
  else
    let w := incref w r
    if overlaps x o ∨ overlaps y o then (w, .none)
    else
      let (w, r) := asFast (store w o (results g x y)) r
      (w, .obj r)

/-- `CheckOutputs`, `src/BasicMath.cpp:2797-2967`, and the loop, 3430-3468; `none` is no output and no exception. -/
def outputs (w : World V) (flat : Nat → Bool) (out : Option Given) (t : Nat) (g : V → V → V) (x y : Inp V) : World V × Res :=
  match out with
  | some .other => (w, .null)
  | some (.arr r) =>
    match w.objs[r]? with
    | some o => if o.ty ≠ t then intoNew w t g x y else intoOutput w (flat r) g x y r o
    | none => (w, .crash)
  | none => intoNew w t g x y

/-- The end of `TwoInputsInternal`, `src/BasicMath.cpp:3477-3487`: without an output the exception, if there is one, or `None`. -/
def finish (exc : Bool) : World V × Res → Ans V
  | (w, .obj r) => ⟨w, .obj r, exc⟩
  | (w, .crash) => ⟨w, .crash, exc⟩
  | (w, .null) => ⟨w, .null, true⟩
  | (w, .none) => if exc then ⟨w, .null, true⟩ else ⟨increfNone w, .none, false⟩

/-- Both inputs are arrays or scalars now: `src/BasicMath.cpp:3525-3535` with 3395-3488. -/
def compute (m : Math V S) (w : World V) (flat : Nat → Bool) (f outTy : Int) (exc u1 u2 : Bool) (a b : Ready S) (out : Option Given) : Ans V × Bool :=
  match check m w f outTy u1 u2 a b with
  | none => (⟨increfNone w, .none, exc⟩, false)
  | some i =>
    match m.kernel f i.mode i.t1 i.t2 outTy with
    | none => (finish exc (w, .none), i.over)
    | some (t, g) => (finish exc (outputs w flat out t g i.x i.y), i.over)

/-- The call with a tuple of two or three, `src/BasicMath.cpp:2307-2340` and `3521-3535`: an exception of numpy is set, but `None` is returned. -/
def items (m : Math V S) (w : World V) (flat : Nat → Bool) (f outTy : Int) (exc : Bool) (a b : Item V S) (out : Option Given) : Ans V :=
  match ready w a with
  | (w1, none) => ⟨increfNone w1, .none, true⟩
  | (w1, some (a', d1)) =>
    match ready w1 b with
    | (w2, none) => ⟨increfNone (release w2 d1), .none, true⟩
    | (w2, some (b', d2)) =>
      let r := compute m w2 flat f outTy exc (mayUp out.isSome true a) (mayUp out.isSome false b) a' b' out
      { r.1 with world := release (release r.1.world d1) (if r.2 then none else d2) }

/-- `BasicMathTwoInputs`, `src/BasicMath.cpp:3499-3535`, with three arguments or with another number of them (`none`). A tuple of another size sets an exception, but `None` is
returned. -/
def twoInputs (m : Math V S) (w : World V) (flat : Nat → Bool) : Option (Tuple V S × Num × Num) → Ans V
  | none => ⟨w, .null, true⟩
  | some (.none, _, _) => ⟨w, .null, true⟩
  | some (.size _, _, _) => ⟨increfNone w, .none, true⟩
  | some (.items a b out, fn, ot) => items m w flat (toInt (asLong fn).1) (toInt (asLong ot).1) ((asLong fn).2 || (asLong ot).2) a b out

end Riptide.Hook.Two
