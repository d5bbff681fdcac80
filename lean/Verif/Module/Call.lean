import Verif.Recycle.Call
/-! # Model of small calls of the module: `Empty`, `SetFastArrayType`, `CompareNumpyMemAddress`, `LedgerFunction`, `src/RipTide.cpp:373-592` and 875-919, and `ReMapIndex`,
`src/Bins.cpp:224-333` -/
namespace Riptide.ModuleCall
open Riptide.Recycle.Call (World Arg long int find collect)

/-! ### `Empty` -/

/-- An item of the list of dimensions, `src/RipTide.cpp:910`: a Python number of any size, or what is none. -/
inductive Dim
  | num (n : Int)
  | other
  deriving DecidableEq, Repr

/-- The first argument, `src/RipTide.cpp:888`: a list or what is none. -/
inductive Dims
  | list (l : List Dim)
  | other
  deriving DecidableEq, Repr

/-- What numpy knows: the numbers of types, and whether there is memory at the first and at the second attempt, `src/RipTide.cpp:655-662`. -/
structure Env where
  known : Int → Bool
  first : Bool
  second : Bool

/-- What comes back: an exception, `None`, an array of the recycler, or a new one; `item` is 0 if the type has a size of its own, and `pending` says that an exception is set
all the same. `src/RipTide.cpp:880-919`. -/
inductive EReply
  | error
  | nothing
  | recycled (a : Nat)
  | made (type dim item : Int) (pending : Bool)
  deriving DecidableEq, Repr

/-- `PyTypeNum_ISFLEXIBLE`, `src/RipTide.cpp:617`: bytes, texts and records. -/
def flexible (t : Int) : Bool := decide (18 ≤ t ∧ t ≤ 20)

/-- `static_cast<int>(itemsize)`, `src/RipTide.cpp:679`. -/
def toInt32 (n : Int) : Int := if n % 4294967296 < 2147483648 then n % 4294967296 else n % 4294967296 - 4294967296

/-- Whether `PyArray_New` makes an array, `src/RipTide.cpp:655` and 677: not for an unknown type, a negative dimension, items of a size below 1 where the size is asked for, or
without memory. -/
def makes (E : Env) (mem : Bool) (t dim item : Int) : Bool := E.known t && decide (0 ≤ dim) && (!flexible t || decide (1 ≤ item)) && mem

/-- Both attempts, `src/RipTide.cpp:652-688`: in between the recycler is emptied, and the exception of the first attempt stays. -/
def newArray (E : Env) (w : World) (now : Nat) (t dim item : Int) : Option (World × EReply) :=
  let it := if flexible t then item else 0
  if makes E E.first t dim item then some (w, .made t dim it false)
  else (collect w now 0 false).map fun r => (r.1, if makes E E.second t dim item then .made t dim it true else .error)

/-- `AllocateNumpyArray` with one dimension, `src/RipTide.cpp:597-711`. A negative length is as none for the recycler. -/
def alloc (E : Env) (w : World) (now : Nat) (t dim item : Int) : Option (World × EReply) :=
  if item = 0 ∧ flexible t = false then
    (find w 1 t dim.toNat).bind fun r =>
      match r.2 with
      | some a => some (r.1, .recycled a)
      | none => newArray E r.1 now t dim 0
  else newArray E w now t dim (if item = 0 then 1 else toInt32 item)

/-- `Empty`, `src/RipTide.cpp:881-919`: the dimension is -1 if it is no number, with an exception which another one takes the place of. `fortran` is none if it is no bool; for one
dimension it does not matter. -/
def empty (E : Env) (w : World) (now : Nat) (dims : Dims) (dtype item : Arg) (fortran : Option Bool) : Option (World × EReply) :=
  match dims, int dtype, long item, fortran with
  | .list l, some t, some i, some _ =>
    match l with
    | [.other] => alloc E w now t (-1) i
    | [.num n] => if -9223372036854775808 ≤ n ∧ n ≤ 9223372036854775807 then alloc E w now t n i else some (w, .error)
    | _ => some (w, .nothing)
  | _, _, _, _ => some (w, .error)

/-! ### `SetFastArrayType` -/

/-- The class of fast arrays, which classes have a finalizer, and how often the module holds each, `src/RipTide.cpp:386-404`. -/
structure Types where
  fast : Option Nat
  final : Nat → Bool
  held : Nat → Nat

/-- What the call is given, `src/RipTide.cpp:382`: two objects, the first of this class, or another number of them. -/
inductive TArgs
  | two (cls : Nat)
  | other
  deriving DecidableEq, Repr

/-- `SetFastArrayType`, `src/RipTide.cpp:377-408`, and whether it returns `None`; otherwise it raises. -/
def setType (s : Types) : TArgs → Types × Bool
  | .other => (s, false)
  | .two t =>
    if s.fast = none then
      if s.final t then (s, false)
      else (⟨some t, fun u => if u = t then true else s.final u, fun u => if u = t then s.held u + 1 else s.held u⟩, true)
    else (s, true)

/-- Several calls, `src/RipTide.cpp:377-408`. -/
def setTypes (s : Types) : List TArgs → Types × List Bool
  | [] => (s, [])
  | a :: as => let r := setType s a; let rs := setTypes r.1 as; (rs.1, r.2 :: rs.2)

/-! ### `CompareNumpyMemAddress` -/

/-- An argument, `src/RipTide.cpp:419`: an array whose first item is at this address with this many bytes behind it, or what is no array. -/
inductive MArg
  | array (addr bytes : Nat)
  | other
  deriving DecidableEq, Repr

/-- `CompareNumpyMemAddress`, `src/RipTide.cpp:414-432`: none is an exception. -/
def compare : List MArg → Option Bool
  | [.array a _, .array b _] => some (decide (a = b))
  | _ => none

/-! ### `LedgerFunction` -/

/-- An object: its class and whether it can be called, `src/RipTide.cpp:556-559`. -/
structure LObj where
  id : Nat
  cls : Nat
  callable : Bool
  deriving DecidableEq, Repr

/-- What a function returns: nothing but an exception, an array (and whether it is a fast array), or another object, `src/RipTide.cpp:581-590`. -/
inductive Ret
  | raised
  | array (id : Nat) (fast : Bool)
  | other (id : Nat)
  deriving DecidableEq, Repr

/-- What `LedgerFunction` returns, `src/RipTide.cpp:548-592`. -/
inductive LReply
  | few
  | notCallable
  | ret (r : Ret)
  deriving DecidableEq, Repr

/-- `SetFastArrayView`, `src/RipTide.cpp:437-464`: a view of this number if the class of fast arrays is known and a view can be made. -/
def fastView (fast view : Option Nat) : Ret → Ret
  | .array id false => match fast, view with
    | some _, some v => .array v true
    | _, _ => .array id false
  | r => r

/-- `LedgerFunction`, `src/RipTide.cpp:544-592`, with the classes which are never given back (line 559). -/
def ledger (fast view : Option Nat) (f : LObj → List LObj → List (Nat × LObj) → Ret) (args : List LObj) (kw : List (Nat × LObj)) : LReply × List Nat :=
  match args with
  | a :: b :: as => if a.callable then (.ret (fastView fast view (f a (b :: as) kw)), []) else (.notCallable, [a.cls])
  | _ => (.few, [])

/-! ### `ReMapIndex` -/

/-- An argument of `ReMapIndex`, `src/Bins.cpp:285`: an array or what is none. -/
inductive RArg
  | array
  | other
  deriving DecidableEq, Repr

/-- What comes of `ReMapIndex`, `src/Bins.cpp:279-333`. -/
inductive RReply
  | error
  | undefined
  deriving DecidableEq, Repr

/-- `ReMapIndex`, `src/Bins.cpp:279-333`: the format `O!O!O` has no `!` for the third object, so that its address is written over the class of arrays, and the pointer which is
followed in line 288 is null. -/
def remap : List RArg → RReply
  | [.array, .array, _] => .undefined
  | _ => .error

/-- A number of so many bits with sign, `(U)`, `src/Bins.cpp:236`. -/
def wrap (bits : Nat) (n : Int) : Int := if n % 2 ^ bits < 2 ^ (bits - 1) then n % 2 ^ bits else n % 2 ^ bits - 2 ^ bits

/-- One item of the loop, `src/Bins.cpp:236`: undefined if the index is outside the map. -/
def remapItem (bits : Nat) (mapper : List Int) (i : Int) : Option Int :=
  if i < 0 then none else (mapper[i.toNat]?).map (wrap bits)

/-- The loop of `ReMapIndex<T, U>`, `src/Bins.cpp:228-238`, into an output of so many items: undefined if this is shorter. -/
def remapLoop (bits : Nat) (mapper : List Int) (input out : List Int) : Option (List Int) :=
  if out.length < input.length then none else (input.mapM (remapItem bits mapper)).map fun l => l ++ out.drop input.length

end Riptide.ModuleCall
