import Verif.AsArray.Call
/-! # What is expected of `AsAnyArray` and `AsFastArray`

Said without the functions of the model which follow the code. -/
namespace Riptide.AsArrayCall

/-- By how many more places an object is held at the end. -/
def netHeld (ts : List Tick) (id : Nat) : Int := ((ts.filter fun t => t.id = id).map Tick.held).sum

/-- By how much the counter of an object has changed at the end. -/
def netCounted (ts : List Tick) (id : Nat) : Int := ((ts.filter fun t => t.id = id).map Tick.counted).sum

/-- Every object is counted as often as it is held: nothing is kept for ever and nothing is freed while it is in use. -/
def Balanced (ts : List Tick) : Prop := ∀ id, netCounted ts id = netHeld ts id

/-- The argument by name, if there is one. -/
def Call.name {α : Type} (c : Call) (f : Kw → Option α) : Option α := c.kw.bind f

/-- The number of arguments by position is wrong. -/
def Call.WrongCount (c : Call) : Prop := c.pos.length ≠ 1 ∧ c.pos.length ≠ 2

/-- The second argument by position, taken as a dtype. -/
def Call.second (c : Call) : Option DArg := c.pos[1]?.map PArg.dt

/-- The dtype is given both ways. -/
def Call.Twice (c : Call) : Prop := (∃ d, c.second = some d) ∧ ∃ d, c.name Kw.dtype = some d

/-- The dtype which counts: the one by position, or else the one by name. -/
def Call.dtype (c : Call) : Option DArg := c.second.or (c.name Kw.dtype)

/-- Nothing is wrong with the arguments, as far as they are looked at before an array is made. -/
def Call.Accepted (c : Call) : Prop := ¬ c.WrongCount ∧ ¬ c.Twice ∧ c.dtype ≠ some .bad

/-- `copy` is a bool and `order` is a text, if they are given. -/
def Call.Sound (c : Call) : Prop := c.name Kw.copy ≠ some .other ∧ c.name Kw.order ≠ some .other

/-- Neither a copy nor an order is asked for. -/
def Call.Plain (c : Call) : Prop := c.name Kw.copy ≠ some .yes ∧ (c.name Kw.order = none ∨ c.name Kw.order = some .other)

/-- What numpy is asked for. -/
def Call.asks (c : Call) (fl : Flags) : Prop :=
  (fl.copy = true ↔ c.name Kw.copy = some .yes) ∧ (fl.f = true ↔ c.name Kw.order = some .F) ∧ (fl.c = true ↔ ∃ s, c.name Kw.order = some (.text s))

/-- The object which is to become an array. -/
def Call.first (c : Call) : Option Input := c.pos[0]?.map PArg.obj

/-- Numpy is not needed: an array as it is, or a list of which an array can be made. -/
def Call.Easy (E : Env) (c : Call) : Prop :=
  c.dtype = none ∧ ((∃ a, c.first = some (.array a) ∧ c.Plain) ∨ ∃ l, c.first = some (.list l) ∧ AsArray.asArray E.long4 E.junk l ≠ .numpy)

/-- The type a dtype stands for: `None` stands for doubles (`np.dtype(None)`), and not for no dtype. -/
def DArg.type (E : Env) : DArg → Option DType
  | .descr d => some d.ty
  | .made d => some d.ty
  | .none => some E.double.ty
  | .bad => Option.none

/-- What numpy makes if it is asked. -/
def Call.numpy (E : Env) (c : Call) (m : Option Made) : Prop :=
  ∃ obj fl, c.first = some obj ∧ c.asks fl ∧ E.fromAny obj (c.dtype.bind (DArg.type E)) fl = m

/-- The array of a reply. -/
def Reply.res : Reply → Option Res
  | .value r => some r
  | .both r _ => some r
  | _ => none

/-- `PyArray_FromAny` keeps its word: with the flag for a copy it returns an array nobody else holds, and one without dimensions which nobody else holds has at most one object. -/
structure Env.Honest (E : Env) : Prop where
  copies : ∀ obj d fl m, fl.copy = true → E.fromAny obj d fl = some m → m.shared = false
  /-- An array nobody else holds is not the one which was given. -/
  own : ∀ a d fl m, E.fromAny (.array a) d fl = some m → m.shared = false → m.arr.id ≠ a.id

end Riptide.AsArrayCall
