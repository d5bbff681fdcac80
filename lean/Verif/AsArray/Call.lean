import Verif.AsArray.Model
/-! # Model of the calls `AsAnyArray` and `AsFastArray`, `src/Array.cpp:173-415`

What is given by position and by name, exceptions which are set on the way, what numpy is asked for, what becomes of an array without dimensions, and who
holds a reference to what at the end. What is made of a list is `Riptide.AsArray.asArray` (`Verif/AsArray/Model`). -/
namespace Riptide.AsArrayCall

/-- The type of an array as an object: `PyArray_Type`, `g_FastArrayType` or another class derived from them, `src/RipTide.h:194-199`. -/
inductive Cls
  | numpy
  | fast
  | sub (n : Nat)
  deriving DecidableEq, Repr

/-- A descriptor, as far as `src/Array.cpp:394-398` loses something of it: number of the type, bytes of an item, whether they are in the other order than that of the
machine, and what else belongs to the type (the unit of a date, the fields of a record; 0 for nothing). -/
structure DType where
  num : Nat
  item : Nat
  swapped : Bool
  extra : Nat
  deriving DecidableEq, Repr

/-- A descriptor as an object, `src/Array.cpp:254`. -/
structure Descr where
  id : Nat
  ty : DType
  deriving DecidableEq, Repr

/-- An array of numpy, `src/Array.cpp:384`: which object it is, its class, its dimensions, its type, its memory and, for items which are Python objects, these objects. -/
structure NArr where
  id : Nat
  cls : Cls
  dims : List Nat
  ty : DType
  bytes : List Nat
  objs : List Nat
  deriving DecidableEq, Repr

/-- What is in an array which is returned: something with a descriptor or what was made of a list, `src/Array.cpp:297-401`. -/
inductive What
  | raw (ty : DType) (bytes objs : List Nat)
  | conv (a : AsArray.Arr)
  deriving DecidableEq, Repr

/-- An array which is returned, `src/Array.cpp:297-401`. -/
structure Res where
  id : Nat
  cls : Cls
  dims : List Nat
  what : What
  deriving DecidableEq, Repr

/-- An array of numpy as a result, `src/Array.cpp:299` and 390. -/
def NArr.res (a : NArr) : Res := ⟨a.id, a.cls, a.dims, .raw a.ty a.bytes a.objs⟩

/-- The object which is to become an array, `src/Array.cpp:264`, as far as `src/Array.cpp:293` and 304 tell it apart. -/
inductive Input
  | array (a : NArr)
  | list (l : List AsArray.Obj)
  | other (id : Nat)
  deriving DecidableEq, Repr

/-- What is given as the dtype, `src/RipTide.h:206-214`: a descriptor, something `np.dtype` makes one of, `None`, or something it refuses. -/
inductive DArg
  | descr (d : Descr)
  | made (d : Descr)
  | none
  | bad
  deriving DecidableEq, Repr

/-- What is given as `copy`, `src/Array.cpp:187-201`. -/
inductive CopyArg
  | yes
  | no
  | other
  deriving DecidableEq, Repr

/-- What is given as `order`, `src/Array.cpp:203-221`: the text `F`, another text or no text. -/
inductive OrderArg
  | F
  | text (s : List Nat)
  | other
  deriving DecidableEq, Repr

/-- Arguments by name, `src/Array.cpp:267-287`; `extra` are names nobody asks for. -/
structure Kw where
  dtype : Option DArg
  copy : Option CopyArg
  order : Option OrderArg
  extra : List Nat
  deriving DecidableEq, Repr

/-- An argument by position, `src/Array.cpp:254` and 264: what it is as an object and what it is as a dtype. -/
structure PArg where
  obj : Input
  dt : DArg
  deriving DecidableEq, Repr

/-- The arguments of a call, `src/Array.cpp:238`; `kw` is a null pointer if nothing is given by name. -/
structure Call where
  pos : List PArg
  kw : Option Kw
  deriving DecidableEq, Repr

/-- Flags for numpy beside `NPY_ARRAY_ENSUREARRAY`, `src/Array.cpp:183`. -/
structure Flags where
  copy : Bool
  c : Bool
  f : Bool
  deriving DecidableEq, Repr

/-- `NPY_ARRAY_ENSUREARRAY` alone, `src/Array.cpp:183` and 265. -/
def Flags.plain : Flags := ⟨false, false, false⟩

/-- An array numpy made, `src/Array.cpp:384`: `shared` says that somebody else holds it as well, as when it is the array which was given. -/
structure Made where
  arr : NArr
  shared : Bool
  deriving DecidableEq, Repr

/-- What the call depends on: whether the class of fast arrays is known, the size of a `long`, what is in new memory, the object which a new array and a view
become, the descriptor of doubles, whether there is memory (for all new arrays of a call alike), whether `PyArray_View` succeeds, and what `PyArray_FromAny` does
(`src/Array.cpp:384`). Whether an exception is set does not change what numpy does; this simplifies. -/
structure Env where
  fast : Bool
  long4 : Bool
  junk : Nat → Nat
  fresh : Nat
  view : Nat
  double : Descr
  enough : Bool
  viewOk : Bool
  fromAny : Input → Option DType → Flags → Option Made

/-- Exceptions, `src/Array.cpp:199`, 219, 248, 254, 274, 279, 384 and 395. -/
inductive Exc
  | count
  | dtype
  | twice
  | copy
  | order
  | numpy
  | memory
  deriving DecidableEq, Repr

/-- How the call ends: with an array, with a null pointer and an exception, with an array although an exception is set (Python makes a `SystemError` of it and
drops the array), or undefined. -/
inductive Reply
  | value (r : Res)
  | raised (e : Exc)
  | both (r : Res) (e : Exc)
  | undefined
  deriving DecidableEq, Repr

/-- A change of references to an object: how many more places hold it and by how much its counter has changed, `src/Array.cpp:298` and 401. -/
structure Tick where
  id : Nat
  held : Int
  counted : Int
  deriving DecidableEq, Repr

/-- The end of a call and all changes of references until then. -/
structure Done where
  reply : Reply
  ticks : List Tick
  deriving DecidableEq, Repr

/-- `DTypeToDescr`, `src/RipTide.h:206-214`: a reference which belongs to the caller. `np.dtype(None)` is the descriptor of doubles. -/
def toDescr (E : Env) : DArg → Option Descr
  | .descr d => some d
  | .made d => some d
  | .none => some E.double
  | .bad => none

/-- Somebody gets a reference which is counted, `src/Array.cpp:254` and 298. -/
def gain (id : Nat) : Tick := ⟨id, 1, 1⟩

/-- Somebody gives a reference back, `src/Array.cpp:401`. -/
def drop (id : Nat) : Tick := ⟨id, -1, -1⟩

/-- A reference which is forgotten without giving it back, `src/Array.cpp:274-275`. -/
def forget (id : Nat) : Tick := ⟨id, -1, 0⟩

/-- A pointer which is copied without counting it, `src/Array.cpp:398`. -/
def smuggle (id : Nat) : Tick := ⟨id, 1, 0⟩

/-- `copy`, `src/Array.cpp:187-201`. -/
def copyFlag : Option CopyArg → Bool
  | some .yes => true
  | _ => false

/-- `order`, `src/Array.cpp:203-221`: every text but `F` is taken for `C`. -/
def orderFlags (copy : Bool) : Option OrderArg → Flags
  | some .F => ⟨copy, false, true⟩
  | some (.text _) => ⟨copy, true, false⟩
  | _ => ⟨copy, false, false⟩

/-- The flags `ProcessAsArrayKwargs` returns, `src/Array.cpp:181-224`, even if it has set an exception. Without names it looks for nothing and finds nothing. -/
def kwFlags (k : Kw) : Flags := orderFlags (copyFlag k.copy) k.order

/-- The exception `ProcessAsArrayKwargs` leaves set, `src/Array.cpp:199` and 219: the later one replaces the earlier one. -/
def kwExc (k : Kw) : Option Exc :=
  if k.order = some .other then some .order
  else if k.copy = some .other then some .copy
  else none

/-- An array is returned, with or without an exception. -/
def answer (exc : Option Exc) (r : Res) : Reply :=
  match exc with
  | none => .value r
  | some e => .both r e

/-- The class of arrays made by `AllocateNumpyArray`, `src/RipTide.cpp:650`. -/
def Env.cls (E : Env) : Cls := if E.fast then .fast else .numpy

/-- Number of the type of Python objects, `NPY_OBJECT`: what `src/Array.cpp:398` copies are pointers to them. -/
def objectNum : Nat := 17

/-- The array with one item made of one without dimensions, `src/Array.cpp:393-398`: only number and size of the type are passed on, so it is in the order of the machine
and nothing else belongs to it. Items without bytes get one, which is zero (`src/RipTide.cpp:671-675` and 690-695). -/
def oneItem (E : Env) (a : NArr) : NArr :=
  { id := E.fresh, cls := E.cls, dims := [1], ty := ⟨a.ty.num, if a.ty.item = 0 then 1 else a.ty.item, false, 0⟩,
    bytes := if a.ty.item = 0 then [0] else a.bytes.take a.ty.item, objs := a.objs }

/-- The array of numpy is held here, `src/Array.cpp:384`; one which nobody else holds has got its objects just now. -/
def takeMade (m : Made) : List Tick := gain m.arr.id :: (if m.shared then [] else m.arr.objs.map gain)

/-- The pointers are copied and the array of numpy is given back, `src/Array.cpp:398-401`; one which nobody else holds gives back its objects. -/
def replaceMade (E : Env) (m : Made) : List Tick :=
  (if m.arr.ty.num = objectNum then m.arr.objs.map smuggle else []) ++ gain E.fresh :: drop m.arr.id :: (if m.shared then [] else m.arr.objs.map drop)

/-- `PyArray_FromAny` takes the reference to the descriptor, `src/Array.cpp:384`. -/
def stolen (d : Option Descr) : List Tick :=
  match d with
  | none => []
  | some d => [drop d.id]

/-- The end of `AsAnyArray`, `src/Array.cpp:383-403`. Without memory a null pointer is followed in line 398. -/
def viaNumpy (E : Env) (obj : Input) (d : Option Descr) (fl : Flags) (exc : Option Exc) (ts : List Tick) : Done :=
  match E.fromAny obj (d.map Descr.ty) fl with
  | none => ⟨.raised .numpy, ts ++ stolen d⟩
  | some m =>
    if m.arr.dims ≠ [] then ⟨answer exc m.arr.res, ts ++ stolen d ++ takeMade m⟩
    else if E.enough then ⟨answer exc (oneItem E m.arr).res, ts ++ stolen d ++ takeMade m ++ replaceMade E m⟩
    else ⟨.undefined, []⟩

/-- A list without dtype, `src/Array.cpp:304-370`. Without memory the empty list gives a null pointer; for others it is followed (`src/Array.cpp:32-33`, 66-67, 89-90, 108-109,
123-124 and 155-156). -/
def ofList (E : Env) (l : List AsArray.Obj) (fl : Flags) (exc : Option Exc) (ts : List Tick) : Done :=
  let a := AsArray.asArray E.long4 E.junk l
  if a = .numpy then viaNumpy E (.list l) none fl exc ts
  else if E.enough then ⟨answer exc ⟨E.fresh, E.cls, [l.length], .conv a⟩, ts ++ [gain E.fresh]⟩
  else if l = [] then ⟨.raised .memory, ts⟩
  else ⟨.undefined, []⟩

/-- `AsAnyArray` once the arguments are known, `src/Array.cpp:289-403`. -/
def convert (E : Env) (obj : Input) (d : Option Descr) (fl : Flags) (exc : Option Exc) (ts : List Tick) : Done :=
  match d, obj with
  | none, .array a => if fl = Flags.plain then ⟨answer exc a.res, ts ++ [gain a.id]⟩ else viaNumpy E obj none fl exc ts
  | none, .list l => ofList E l fl exc ts
  | d, obj => viaNumpy E obj d fl exc ts

/-- The arguments by name, `src/Array.cpp:267-287`, and the rest. -/
def withKw (E : Env) (obj : Input) (d : Option Descr) (ts : List Tick) (k : Kw) : Done :=
  match k.dtype, d with
  | none, d => convert E obj d (kwFlags k) (kwExc k) ts
  | some _, some d => ⟨.raised .twice, ts ++ [forget d.id]⟩
  | some x, none =>
    match toDescr E x with
    | none => ⟨.raised .dtype, ts⟩
    | some d => convert E obj (some d) (kwFlags k) (kwExc k) (ts ++ [gain d.id])

/-- `AsAnyArray` behind the arguments by position, `src/Array.cpp:264-403`. -/
def behind (E : Env) (obj : Input) (d : Option Descr) (ts : List Tick) (kw : Option Kw) : Done :=
  match kw with
  | none => convert E obj d Flags.plain none ts
  | some k => withKw E obj d ts k

/-- `AsAnyArray`, `src/Array.cpp:238-404`. -/
def asAny (E : Env) (c : Call) : Done :=
  match c.pos with
  | [a] => behind E a.obj none [] c.kw
  | [a, d] =>
    match toDescr E d.dt with
    | none => ⟨.raised .dtype, []⟩
    | some d => behind E a.obj (some d) [gain d.id] c.kw
  | _ => ⟨.raised .count, []⟩

/-- The view of an array as a fast array, `src/RipTide.cpp:444-455`: it holds the array, which is given back here. -/
def viewOf (E : Env) (r : Res) : Res := { r with id := E.view, cls := .fast }

/-- `SetFastArrayView` of an array, `src/RipTide.cpp:437-464`, with the exception which is set: if the view fails the array itself is returned with an exception. -/
def setView (E : Env) (exc : Option Exc) (r : Res) (ts : List Tick) : Done :=
  if E.fast ∧ r.cls ≠ .fast then
    if E.viewOk then ⟨answer exc (viewOf E r), ts ++ [gain E.view, gain r.id, drop r.id]⟩
    else ⟨.both r .numpy, ts⟩
  else ⟨answer exc r, ts⟩

/-- `AsFastArray`, `src/Array.cpp:409-415`: a null pointer is passed on as well and followed if the class of fast arrays is known (`src/RipTide.cpp:439`). -/
def asFast (E : Env) (c : Call) : Done :=
  match asAny E c with
  | ⟨.value r, ts⟩ => setView E none r ts
  | ⟨.both r e, ts⟩ => setView E (some e) r ts
  | ⟨.raised e, ts⟩ => if E.fast then ⟨.undefined, []⟩ else ⟨.raised e, ts⟩
  | ⟨.undefined, _⟩ => ⟨.undefined, []⟩

end Riptide.AsArrayCall
