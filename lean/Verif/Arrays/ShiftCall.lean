import Verif.Arrays.Info
/-!
# `ShiftArrays` on arrays of any type and layout, `src/Convert.cpp:3062-3211`

The arrays are in one memory, each at its first byte, so that two of them may overlap. Left out: whether the arrays may be written to, which the code does not look
at, lists of 2^31 arrays or more, and pointers which are computed outside of an array and not used.
-/
namespace Riptide.Nums.Shift
open Riptide.Nums Riptide.Binary

/-- An item of the list (see `Info.Arg`, `src/MultiKey.cpp:180-297`): `None`, something else, or an array whose first item is at `base`. -/
inductive Item where
  | pyNone
  | other
  | array (a : Arr) (base : Int)
  deriving DecidableEq, Repr

/-- What is passed, `src/MultiKey.cpp:151-172`. -/
inductive Given where
  | one (a : Arr) (base : Int)
  | items (l : List Item)
  | other

/-- The item as `BuildArrayInfo` sees it, `src/MultiKey.cpp:180-297`. -/
def Item.arg (M : Mem) : Item → Info.Arg
  | .pyNone => .pyNone
  | .other => .other
  | .array a base => .array a fun o => M (base + o)

/-- What is passed as a list, `src/MultiKey.cpp:151-172`; `none` is an exception. -/
def Given.list : Given → Option (List Item)
  | .one a base => some [.array a base]
  | .items l => some l
  | .other => none

/-- One `memmove` of `src/Convert.cpp:3158,3188,3195`. -/
structure Move where
  dst : Int
  src : Int
  n : Nat
  deriving DecidableEq, Repr

/-- "Check for fortran style", `src/Convert.cpp:3112`. -/
def isFortran (l : Lay) : Bool :=
  match l.strides with
  | s :: t :: _ => decide (s < t)
  | _ => false

/-- A number of `int64_t`; the overflow of one is undefined. -/
def fits (x : Int) : Bool := decide (-9223372036854775808 ≤ x ∧ x ≤ 9223372036854775807)

/-- Where the bytes go, relative to the first one, `src/Convert.cpp:3137-3148` and `src/Convert.cpp:3182-3196`: `(destination, source)`. -/
def ends (k : Int) (item : Nat) : Int × Int := if k < 0 then (-(k * item), 0) else (0, k * item)

/-- How many are moved, `src/Convert.cpp:3140-3145` and `src/Convert.cpp:3172-3176`. -/
def moved (n : Nat) (k : Int) : Int := if k < 0 then n + k else n - k

/-- The branch for Fortran order, `src/Convert.cpp:3112-3164`: with three dimensions or more it is only printed. `none`: a number overflows. -/
def columns (rows cols item : Nat) (k : Int) : Option (List Move) :=
  if fits (k * item) && fits (rows - k) then
    if 0 < moved rows k then
      some ((List.range cols).map fun (i : Nat) =>
        ⟨(ends k item).1 + ((i * (rows * item) : Nat) : Int), (ends k item).2 + ((i * (rows * item) : Nat) : Int), (moved rows k).toNat * item⟩)
    else some []
  else none

/-- The other branch, `src/Convert.cpp:3165-3198`: all items, whatever the number of dimensions is. -/
def flat (len item : Nat) (k : Int) : Option (List Move) :=
  if fits (len - k) then
    if 0 < moved len k then some [⟨(ends k item).1, (ends k item).2, (moved len k).toNat * item⟩] else some []
  else none

/-- `lambdaShiftCallback`, `src/Convert.cpp:3100-3201`, for one array which is taken. -/
def plan (l : Lay) (k : Int) : Option (List Move) :=
  if isFortran l then
    match l.dims with
    | [rows, cols] => columns rows cols l.item k
    | _ => some []
  else flat l.len l.item k

/-- The moves in the memory; those in a copy are not seen by anyone, as the copy is dropped (`FreeArrayInfo`, `src/Convert.cpp:3205`) and the passed list is
returned, `src/Convert.cpp:3206-3207`. -/
def moves (M : Mem) (k : Int) (x : Item) : Option (List Move) :=
  match x with
  | .array a base =>
    match Info.taken true true a (fun o => M (base + o)) with
    | some (b, _, c) => (plan b.lay k).map fun l => if c then [] else l.map fun v => ⟨base + v.dst, base + v.src, v.n⟩
    | none => some []
  | _ => some []

/-- `memmove`, `src/Convert.cpp:3158,3188,3195`; `none`: a byte which belongs to no array. -/
def move (M : Mem) (v : Move) : Option Mem :=
  if (List.range v.n).all (fun (i : Nat) => (M (v.src + i)).isSome && (M (v.dst + i)).isSome) then
    some fun p => if v.dst ≤ p ∧ p < v.dst + v.n then M (v.src + (p - v.dst)) else M p
  else none

/-- Two ranges of bytes have none in common. -/
def apart (x : Int) (n : Nat) (y : Int) (m : Nat) : Bool := decide (n = 0 ∨ m = 0 ∨ x + n ≤ y ∨ y + m ≤ x)

/-- Two `memmove`s which may run at the same time, `src/Convert.cpp:3203`: neither writes what the other reads or writes. -/
def harmless (v w : Move) : Bool := apart v.dst v.n w.dst w.n && apart v.dst v.n w.src w.n && apart v.src v.n w.dst w.n

/-- Two arrays of the list are in the way of each other. -/
def races : List (List Move) → Bool
  | [] => false
  | l :: r => (r.any fun s => l.any fun v => s.any fun w => !harmless v w) || races r

/-- What comes of the call: an exception, undefined behaviour, or the memory afterwards; what was passed is returned, `src/Convert.cpp:3206-3207`. -/
inductive Outcome where
  | error
  | undefined
  | done (M : Mem)

/-- The jobs in the order in which they run, `DoMultiThreadedWork` of `src/Convert.cpp:3203`; with threads two jobs may run at the same time. -/
def runJobs (threads : Bool) (M : Mem) (ls : List (List Move)) (order : List Nat) : Outcome :=
  if threads && races ls then .undefined
  else
    match (order.flatMap fun (i : Nat) => ls.getD i []).foldlM move M with
    | none => .undefined
    | some M' => .done M'

/-- `ShiftArrays`, `src/Convert.cpp:3067-3211`. `table` and `room` tell whether there is memory (see `Info.build`). -/
def shift (threads table : Bool) (room : Nat → Bool) (M : Mem) (g : Given) (k : Int) (order : List Nat) : Outcome :=
  if fits k then
    match g.list with
    | none => .error
    | some l =>
      match Info.build table room false true (.items (l.map (Item.arg M))) with
      | .refused => .error
      | .silent => .error
      | .undefined => .undefined
      | .ok _ _ =>
        match l.mapM (moves M k) with
        | none => .undefined
        | some ls => runJobs threads M ls order
  else .error

end Riptide.Nums.Shift
