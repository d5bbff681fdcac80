import Verif.Binary.Upcast
import Verif.Binary.Compare
/-! # Model of the operators of arrays, `src/Hook.cpp`

Python objects are modelled by a list of array objects which point into blocks of memory, each with its count of references;
references to `None` are counted too.  Arrays have one dimension.  What a calculation yields for two elements, the types it has and
the conversions are those of `src/BasicMath.cpp`, modelled elsewhere, and are parameters here (`Math`); a loop reads all elements
before it writes (which `Binary/LayoutProps.lean` justifies for inputs that do not overlap the output in part). -/
namespace Riptide.Hook
open Riptide.Binary (Mode)

/-- The calculations of the table and the comparisons, `src/CommonInc.h:283-340`. -/
inductive Op where
  | add | sub | mul | div | floordiv | bitAnd | bitOr | bitXor | lshift | rshift | mod | abs | neg | invert | power
  | lt | le | eq | ne | gt | ge
  deriving DecidableEq, Repr

/-- Whether the two types of a comparison may differ, `src/RipTide.cpp:2236-2284`. -/
def Op.isCmp (o : Op) : Bool := decide (o = .lt ∨ o = .le ∨ o = .eq ∨ o = .ne ∨ o = .gt ∨ o = .ge)

/-- What `src/BasicMath.cpp` does with elements (`V`) and with Python scalars (`S`): the type wanted for the output and the
calculation (`CheckMathOpTwoInputs`, 1969-2055), the conversion of arrays (`ConvertSafeInternal`), the type to which an array is
converted for a scalar (`PossiblyUpcast`, 2123-2245), scalars as elements (`ConvertScalarObject`), the types of two arrays of one
length (`CheckUpcast`, 2359-2435) and of an array and a single item (`GetUpcastType`), and a single item as an element
(`ConvertSingleItemArray`). -/
structure Math (V S : Type) where
  kernel : Op → Mode → Nat → Nat → Option (Nat × (V → V → V))
  cast : Nat → Nat → V → V
  up : Op → S → Nat → Nat
  scal : S → Nat → Option V
  pair : Op → Nat → Nat → Option (Nat × Nat)
  upOne : Op → Nat → Nat → Option (Nat × Nat)
  one : Nat → Nat → V → Option V

/-- An array: its numpy type, its block of memory with the first item, the number of items and the step between them, whether its
class is `FastArray` itself, and its count of references. -/
structure Obj where
  ty : Nat
  blk : Nat
  off : Nat
  len : Nat
  step : Nat := 1
  fast : Bool := true
  refs : Nat := 1
  deriving DecidableEq, Repr

/-- Arrays, memory, references to `None` (beyond those held by others), and for the coming allocations whether they succeed
(those not listed do). -/
structure World (V : Type) where
  objs : List Obj
  mem : List (List V)
  nones : Nat := 0
  oom : List Bool := []
  deriving DecidableEq, Repr

/-- What a call gives back: an object, `None` ("punt to numpy"), `nullptr` (with an exception), or a null pointer that is
followed. -/
inductive Res where
  | obj (r : Nat)
  | none
  | null
  | crash
  deriving DecidableEq, Repr

variable {V S : Type} [Inhabited V]

/-- The elements of an array. -/
def valsOf (w : World V) (o : Obj) : List V :=
  (List.range o.len).map fun (k : Nat) => ((w.mem.getD o.blk []).getD (o.off + k * o.step) default)

/-- `Py_INCREF`. -/
def incref (w : World V) (r : Nat) : World V := { w with objs := w.objs.modify r fun o => { o with refs := o.refs + 1 } }

/-- `Py_DECREF`; an object without references is freed. -/
def decref (w : World V) (r : Nat) : World V := { w with objs := w.objs.modify r fun o => { o with refs := o.refs - 1 } }

/-- `Py_INCREF(Py_None)`. -/
def increfNone (w : World V) : World V := { w with nones := w.nones + 1 }

/-- `AllocateNumpyArray`, `src/RipTide.cpp:597-700`, with elements: a new array which belongs to the caller.  The elements are
those written into it afterwards. -/
def allocArr (w : World V) (ty : Nat) (vals : List V) : World V × Option Nat :=
  match w.oom with
  | false :: rest => ({ w with oom := rest }, none)
  | rest =>
    ({ w with objs := w.objs ++ [{ ty := ty, blk := w.mem.length, off := 0, len := vals.length }], mem := w.mem ++ [vals],
              oom := rest.drop 1 }, some w.objs.length)

/-- An operand: an array or a Python scalar. -/
inductive Arg (S : Type) where
  | arr (i : Nat)
  | scal (s : S)
  deriving DecidableEq, Repr

/-- One input after `FillArray1`/`FillArray2`, `src/BasicMath.cpp:2275-2301`, and the conversions: its type, its length (0 for a
scalar), its elements, and where it lies unless it is a converted copy or a scalar. -/
structure Inp (V : Type) where
  ty : Nat
  len : Nat
  vals : List V
  place : Option (Nat × Nat)
  deriving DecidableEq, Repr

/-- The element of an input for a row; a scalar has one for all rows. -/
def Inp.at (x : Inp V) (k : Nat) : V := if x.len = 0 then x.vals.getD 0 default else x.vals.getD k default

/-- An array as an input. -/
def fill (w : World V) (o : Obj) : Inp V := { ty := o.ty, len := o.len, vals := valsOf w o, place := some (o.blk, o.off) }

/-- `ConvertSafeInternal` of an input: a copy of another type. -/
def convert (m : Math V S) (x : Inp V) (t : Nat) : Inp V :=
  if x.ty = t then x else { x with ty := t, vals := x.vals.map (m.cast x.ty t), place := none }

/-- An array of two of one length in the common type, `src/BasicMath.cpp:2363-2428`: `long` is taken for `long long` without a copy. -/
def toCommon (m : Math V S) (x : Inp V) (t : Nat) : Inp V := if Binary.unamb x.ty = t then { x with ty := t } else convert m x t

/-- A scalar as an input of a type. -/
def scalInp (t : Nat) (v : V) : Inp V := { ty := t, len := 0, vals := [v], place := none }

/-- "Check strides", `src/BasicMath.cpp:2592` and `2655`. -/
def strided (o : Obj) : Bool := decide (1 < o.len) && decide (o.step ≠ 1)

/-- An array next to a scalar, `src/BasicMath.cpp:2466-2495`, `2515-2545`, `2560-2660`: unless an output is given the array may be
converted, then the scalar to the array's type; a converted array has no strides. -/
def withScal (m : Math V S) (w : World V) (op : Op) (out : Bool) (o : Obj) (s : S) : Option (Inp V × Inp V) :=
  let t := if out then o.ty else m.up op s o.ty
  if t = o.ty ∧ strided o then none
  else (m.scal s t).map fun v => (convert m (fill w o) t, scalInp t v)

/-- Two arrays, `src/BasicMath.cpp:2587-2790`: of the same length, or one has a single item. -/
def twoArrays (m : Math V S) (w : World V) (op : Op) (o1 o2 : Obj) : Option (Mode × Inp V × Inp V) :=
  if strided o1 ∨ strided o2 then none
  else if o1.len = o2.len then
    (m.pair op o1.ty o2.ty).map fun (t1, t2) => (.none, toCommon m (fill w o1) t1, toCommon m (fill w o2) t2)
  else if o1.len = 1 ∧ 1 ≤ o2.len then
    (m.upOne op o1.ty o2.ty).bind fun (t1, t2) =>
      (m.one o1.ty t1 ((valsOf w o1).getD 0 default)).map fun v => (.first, scalInp t1 v, convert m (fill w o2) t2)
  else if o2.len = 1 ∧ 1 ≤ o1.len then
    (m.upOne op o1.ty o2.ty).bind fun (t1, t2) =>
      (m.one o2.ty t2 ((valsOf w o2).getD 0 default)).map fun v => (.second, convert m (fill w o1) t1, scalInp t2 v)
  else none

/-- `CheckInputsInternal`, `src/BasicMath.cpp:2444-2790`, for arrays and scalars (`none`: false).  Two scalars do not occur. -/
def checkInputs (m : Math V S) (w : World V) (op : Op) (out : Bool) (a b : Arg S) : Option (Mode × Inp V × Inp V) :=
  match a, b with
  | .arr i, .arr j => match w.objs[i]?, w.objs[j]? with
    | some o1, some o2 => twoArrays m w op o1 o2
    | _, _ => none
  | .arr i, .scal s => (w.objs[i]?).bind fun o => (withScal m w op out o s).map fun (x, y) => (.second, x, y)
  | .scal s, .arr j => (w.objs[j]?).bind fun o => (withScal m w op out o s).map fun (x, y) => (.first, y, x)
  | .scal _, .scal _ => none

/-- Whether an input begins or ends inside the output, `src/BasicMath.cpp:2863-2905`; `len` in items. -/
def overlaps (x : Inp V) (o : Obj) : Bool :=
  match x.place with
  | some (b, p) => decide (b = o.blk) && decide (x.len ≠ 0) &&
      ((decide (o.off < p) && decide (p < o.off + o.len)) || (decide (o.off < p + x.len) && decide (p + x.len < o.off + o.len)))
  | none => false

/-- The elements of the result, `src/BasicMath.cpp:3430-3462`. -/
def results (f : V → V → V) (x y : Inp V) : List V := (List.range (max x.len y.len)).map fun (k : Nat) => f (x.at k) (y.at k)

/-- A block after elements are written from an item on. -/
def patch (l : List V) (p : Nat) (vs : List V) : List V := l.mapIdx fun i v => if p ≤ i then vs.getD (i - p) v else v

/-- Writing the results into an output. -/
def store (w : World V) (o : Obj) (vs : List V) : World V := { w with mem := w.mem.modify o.blk fun l => patch l o.off vs }

/-- `SetFastArrayView`, `src/RipTide.cpp:437-470`, for an output: an array of another class is given back as a view of the class
`FastArray`, which holds the reference to it. -/
def asFast (w : World V) (r : Nat) : World V × Nat :=
  match w.objs[r]? with
  | some o => if o.fast then (w, r) else ({ w with objs := w.objs ++ [{ o with fast := true, refs := 1 }] }, w.objs.length)
  | none => (w, r)

/-- An output that is used: `src/BasicMath.cpp:2825-2850` and `2852-2905` (the reference is taken before the overlap is
found), then the loop. -/
def intoOutput (w : World V) (f : V → V → V) (x y : Inp V) (r : Nat) (o : Obj) : World V × Res :=
  if o.len < x.len ∨ o.len < y.len ∨ strided o then (increfNone w, .none)
  else
    let w := incref w r
    if overlaps x o ∨ overlaps y o then (increfNone w, .none)
    else
      let (w, r) := asFast (store w o (results f x y)) r
      (w, .obj r)

/-- A new output, `src/BasicMath.cpp:2907-2960`: when memory runs out there is an exception (2961-2966, 3480-3483). -/
def intoNew (w : World V) (t : Nat) (f : V → V → V) (x y : Inp V) : World V × Res :=
  match allocArr w t (results f x y) with
  | (w, some r) => (w, .obj r)
  | (w, none) => (w, .null)

/-- `CheckOutputs`, `src/BasicMath.cpp:2796-2970`, and the loop: an output of another type than the wanted one is not used
(2810-2822). -/
def outputs (w : World V) (out : Option Nat) (t : Nat) (f : V → V → V) (x y : Inp V) : World V × Res :=
  match out.bind fun r => (w.objs[r]?).map fun o => (r, o) with
  | some (r, o) => if o.ty ≠ t then intoNew w t f x y else intoOutput w f x y r o
  | none => intoNew w t f x y

/-- `BasicMathTwoInputsFromNumber`, `src/BasicMath.cpp:3539-3556`, with `TwoInputsInternal` (3390-3489); strings and conversions
that fail for want of memory are left out. -/
def basicMath (m : Math V S) (w : World V) (op : Op) (a b : Arg S) (out : Option Nat) : World V × Res :=
  match checkInputs m w op out.isSome a b with
  | some (mode, x, y) =>
    match m.kernel op mode x.ty y.ty with
    | some (t, f) => outputs w out t f x y
    | none => (increfNone w, .none)
  | none => (increfNone w, .none)

/-- What an operator gives back: numpy's method is called for some calculations (it then sees the world as it is). -/
inductive Ret where
  | obj (r : Nat)
  | numpy
  | null
  | crash
  deriving DecidableEq, Repr

/-- `if (result != Py_None) return result;` and else numpy's method, e.g. `src/Hook.cpp:127-133`. -/
def orNumpy : World V × Res → World V × Ret
  | (w, .obj r) => (w, .obj r)
  | (w, .none) => (w, .numpy)
  | (w, .null) => (w, .null)
  | (w, .crash) => (w, .crash)

/-- `RiptideBinaryMathFunction`, `src/Hook.cpp:121-134`, and `CompareFunction`, `301-315`. -/
def binary (m : Math V S) (w : World V) (op : Op) (a b : Arg S) : World V × Ret := orNumpy (basicMath m w op a b none)

/-- The conversion of a result which has not the type of the array, `src/Hook.cpp:146-159`: if it fails the result itself is given
back. -/
def backToType (m : Math V S) (w : World V) (t r : Nat) : World V × Ret :=
  match w.objs[r]? with
  | some o =>
    if o.ty = t then (w, .obj r)
    else
      match allocArr w t ((valsOf w o).map (m.cast o.ty t)) with
      | (w, some n) => (decref w r, .obj n)
      | (w, none) => (w, .obj r)
  | none => (w, .crash)

/-- `RiptideBinaryMathFunctionInplace`, `src/Hook.cpp:136-164`: the type of the result is read although it may be `nullptr`. -/
def inPlace (m : Math V S) (w : World V) (op : Op) (self : Nat) (b : Arg S) : World V × Ret :=
  match w.objs[self]? with
  | some o =>
    match basicMath m w op (.arr self) b (some self) with
    | (w, .obj r) => backToType m w o.ty r
    | (w, .none) => (w, .numpy)
    | (w, .null) => (w, .crash)
    | (w, .crash) => (w, .crash)
  | none => (w, .crash)

/-- The multiplication of the square in place, `src/Hook.cpp:67-79`: what it gives back is not looked at; a `nullptr` for the
square is followed. -/
def higher (m : Math V S) (w : World V) (square : Nat) (other : Nat) : World V × Ret :=
  let w := (basicMath m w .mul (.arr square) (.arr other) (some square)).1
  (decref w square, .obj square)

/-- The powers with an exponent from 2 to 4, `src/Hook.cpp:62-81` (`none`: the square is left to numpy). -/
def smallPower (m : Math V S) (w : World V) (self : Nat) (n : Int) : World V × Option Ret :=
  match basicMath m w .mul (.arr self) (.arr self) none with
  | (w, .obj square) =>
    if n = 3 then let (w, r) := higher m w square self; (w, some r)
    else if n = 4 then let (w, r) := higher m w square square; (w, some r)
    else (w, some (.obj square))
  | (w, .null) => (w, some (if n = 2 then .null else .crash))
  | (w, .none) => (w, none)
  | (w, .crash) => (w, some .crash)

/-- `RiptideTernaryMathFunction`, `src/Hook.cpp:46-92`: `exponent` if the second operand is a Python `int`: what
`PyLong_AsLongLongAndOverflow` gives for it; `modulus` if there is a third operand. -/
def power (m : Math V S) (w : World V) (self : Nat) (b : Arg S) (exponent : Option Int) (modulus : Bool) : World V × Ret :=
  if modulus then (w, .numpy)
  else
    match exponent with
    | some 1 => (incref w self, .obj self)
    | some n =>
      if n = 2 ∨ n = 3 ∨ n = 4 then
        match smallPower m w self n with
        | (w, some r) => (w, r)
        | (w, none) => binary m w .power (.arr self) b
      else binary m w .power (.arr self) b
    | none => binary m w .power (.arr self) b

/-- `RiptideTernaryMathFunctionInplace`, `src/Hook.cpp:94-107`. -/
def inPlacePower (m : Math V S) (w : World V) (self : Nat) (b : Arg S) (modulus : Bool) : World V × Ret :=
  let (w, r) := orNumpy (basicMath m w .power (.arr self) b (some self))
  if modulus then (w, .numpy) else (w, r)

/-! ## The table and its installation -/

/-- The slots of `PyNumberMethods` which are replaced, and the one for comparisons. -/
inductive Slot where
  | nbAdd | nbSubtract | nbMultiply | nbTrueDivide | nbFloorDivide
  | nbInplaceAdd | nbInplaceSubtract | nbInplaceMultiply | nbInplaceTrueDivide | nbInplaceFloorDivide
  | nbAnd | nbOr | nbXor | nbInplaceAnd | nbInplaceOr | nbInplaceXor
  | nbLshift | nbRshift | nbInplaceLshift | nbInplaceRshift
  | nbRemainder | nbAbsolute | nbNegative | nbInvert | nbPower | nbInplacePower
  deriving DecidableEq, Repr

/-- The five functions behind the methods, `src/Hook.cpp:46-164`. -/
inductive Fn where
  | binary | inPlace | unary | power | inPlacePower
  deriving DecidableEq, Repr

/-- A method: which function it calls with which index of the table, `src/Hook.cpp:169-227`. -/
structure Meth where
  fn : Fn
  index : Nat
  deriving DecidableEq, Repr

/-- A row of the table: calculation, method and slot. -/
structure Row where
  op : Op
  meth : Meth
  slot : Slot
  deriving DecidableEq, Repr

/-- `g_MathHook`, `src/Hook.cpp:197-266`: with the methods of `DEF_HOOKB`, `DEF_HOOKI`, `DEF_HOOKU`, `DEF_HOOKT` and
`DEF_HOOKS`. -/
def table : List Row :=
  [ ⟨.add, ⟨.binary, 0⟩, .nbAdd⟩, ⟨.sub, ⟨.binary, 1⟩, .nbSubtract⟩, ⟨.mul, ⟨.binary, 2⟩, .nbMultiply⟩,
    ⟨.div, ⟨.binary, 3⟩, .nbTrueDivide⟩, ⟨.floordiv, ⟨.binary, 4⟩, .nbFloorDivide⟩,
    ⟨.add, ⟨.inPlace, 5⟩, .nbInplaceAdd⟩, ⟨.sub, ⟨.inPlace, 6⟩, .nbInplaceSubtract⟩, ⟨.mul, ⟨.inPlace, 7⟩, .nbInplaceMultiply⟩,
    ⟨.div, ⟨.inPlace, 8⟩, .nbInplaceTrueDivide⟩, ⟨.floordiv, ⟨.inPlace, 9⟩, .nbInplaceFloorDivide⟩,
    ⟨.bitAnd, ⟨.binary, 10⟩, .nbAnd⟩, ⟨.bitOr, ⟨.binary, 11⟩, .nbOr⟩, ⟨.bitXor, ⟨.binary, 12⟩, .nbXor⟩,
    ⟨.bitAnd, ⟨.inPlace, 13⟩, .nbInplaceAnd⟩, ⟨.bitOr, ⟨.inPlace, 14⟩, .nbInplaceOr⟩, ⟨.bitXor, ⟨.inPlace, 15⟩, .nbInplaceXor⟩,
    ⟨.lshift, ⟨.binary, 16⟩, .nbLshift⟩, ⟨.rshift, ⟨.binary, 17⟩, .nbRshift⟩,
    ⟨.lshift, ⟨.inPlace, 18⟩, .nbInplaceLshift⟩, ⟨.rshift, ⟨.inPlace, 19⟩, .nbInplaceRshift⟩,
    ⟨.mod, ⟨.binary, 20⟩, .nbRemainder⟩, ⟨.abs, ⟨.unary, 21⟩, .nbAbsolute⟩, ⟨.neg, ⟨.unary, 22⟩, .nbNegative⟩,
    ⟨.invert, ⟨.unary, 23⟩, .nbInvert⟩, ⟨.power, ⟨.power, 24⟩, .nbPower⟩, ⟨.power, ⟨.inPlacePower, 25⟩, .nbInplacePower⟩ ]

/-- `COMP_TABLE`, `src/Hook.cpp:293-294`. -/
def compTable : List Op := [.lt, .le, .eq, .ne, .gt, .ge]

/-- What a slot of the class holds: numpy's function, or a method of the table. -/
inductive Held where
  | numpy (s : Slot)
  | ours (m : Meth)
  | nothing
  deriving DecidableEq, Repr

/-- The class and the globals: the slots, `SuperMethod` of the rows, and `g_ishooked`. -/
structure Cls where
  slots : Slot → Held
  super : List Held
  hooked : Bool

/-- Before the first call: numpy's functions in the slots, `SuperMethod` empty. -/
def Cls.start : Cls := { slots := .numpy, super := table.map fun _ => .nothing, hooked := false }

/-- One turn of the loop, `src/Hook.cpp:352-371`: "chain this function, insert our routine first". -/
def hookRow (c : Cls) (i : Nat) (r : Row) : Cls :=
  { c with slots := fun s => if s = r.slot then .ours r.meth else c.slots s, super := c.super.set i (c.slots r.slot) }

/-- `BasicMathHook`, `src/Hook.cpp:321-383`, for a class with number methods; numpy's own class is not changed
(`hookNumpy` is false). -/
def hook (c : Cls) : Cls :=
  if c.hooked then c
  else (table.zipIdx).foldl (fun c p => hookRow c p.2 p.1) { c with hooked := true }

end Riptide.Hook
