import Verif.Recycle.Model
/-!
# The calls of the recycler: `SetRecycleMode`, `RecycleSetGarbageCollectTimeout`, `RecycleGarbageCollectNow`, `RecycleDump`, `RecycleNumpy`, `TryRecycleNumpy` and
`AllocateNumpy`, `src/Recycler.cpp:497-527`, `src/Recycler.cpp:583-594`, `src/Recycler.cpp:805-967`

`now` is what `__rdtsc` gives during a call; it is taken never to go back. Left out: references of numbers in the dictionary which are never given back, the work spaces (see `WsModel`), the name which
is taken from an array which is handed out, and that `SetFastArrayView` may make a view of it.
-/
namespace Riptide.Recycle.Call
open Riptide.Recycle

/-- The recycler and what it counts, `src/Recycler.cpp:15-18`. -/
structure World where
  st : Rec
  hits : Int
  misses : Int
  heads : Int
  tails : Int

/-- `InitRecycler`, `src/Recycler.cpp:979-985`, with the counters of `src/Recycler.cpp:15-18`. -/
def World.init : World := ⟨.init, 0, 0, 0, 0⟩

/-- An argument which shall be a number, `src/Recycler.cpp:587`. -/
inductive Arg where
  | num (n : Int)
  | other

/-- An argument which shall be an array, `src/Recycler.cpp:853`. -/
inductive Given where
  | array (a : Nat)
  | other

/-- An item of a list given to `TryRecycleNumpy`, `src/Recycler.cpp:893-898`: an array with these dimensions or any other object. -/
inductive Item where
  | array (dims : List Nat)
  | other

/-- The second argument of `TryRecycleNumpy`, `src/Recycler.cpp:885`. -/
inductive Many where
  | list (l : List Item)
  | other

/-- What comes of a call: an exception, `None`, a truth value, a number, an array of the recycler, a new array (and whether an exception is set all the same), or the
dictionary of `RecycleGarbageCollectNow` as far as it is about arrays. -/
inductive Reply where
  | error
  | nothing
  | truth (b : Bool)
  | number (n : Int)
  | recycled (a : Nat)
  | made (type : Int) (dims : List Nat) (item : Nat) (pending : Bool)
  | stats (hits misses heads tails deleted : Int)
  deriving DecidableEq, Repr

/-- A number for the format `L` of `PyArg_ParseTuple`, `src/Recycler.cpp:587`. -/
def long : Arg → Option Int
  | .num n => if -9223372036854775808 ≤ n ∧ n ≤ 9223372036854775807 then some n else none
  | .other => none

/-- A number for the format `i`, `src/Recycler.cpp:814`. -/
def int : Arg → Option Int
  | .num n => if -2147483648 ≤ n ∧ n ≤ 2147483647 then some n else none
  | .other => none

/-- One slot of the loop of `GarbageCollect` with the number of deleted arrays, `src/Recycler.cpp:452-483`. -/
def gcStep (now : Nat) (span : Int) (t : Rec × Int) (p : Nat × Nat × Nat) : Option (Rec × Int) :=
  if t.1.head p.1 p.2.1 ≠ t.1.tail p.1 p.2.1 ∧ (t.1.item p.1 p.2.1 p.2.2).size > 0 ∧ (now : Int) - (t.1.item p.1 p.2.1 p.2.2).tsc > span then
    (t.1.release p.1 p.2.1 p.2.2).map fun s => (s, t.2 + 1)
  else some t

/-- `GarbageCollect`, `src/Recycler.cpp:413-494`, with the product of `src/Recycler.cpp:436`, which may be out of range. -/
def collect (w : World) (now : Nat) (timespan : Int) (force : Bool) : Option (World × Int) :=
  if !force && now - w.st.lastGc < 60000000000 then some (w, 0)
  else if timespan * 1000000000 < -9223372036854775808 ∨ 9223372036854775807 < timespan * 1000000000 then none
  else (slots.foldlM (gcStep now (timespan * 1000000000)) ({ w.st with lastGc := now }, 0)).map fun r => ({ w with st := r.1, tails := w.tails + r.2 }, r.2)

/-- `RecycleFindArray`, `src/Recycler.cpp:531-579`, with what it counts. -/
def find (w : World) (ndim : Nat) (type : Int) (len : Nat) : Option (World × Option Nat) :=
  (w.st.find ndim type len).map fun r =>
    match r.2 with
    | some a => ({ w with st := r.1, hits := w.hits + 1, tails := w.tails + 1 }, some a)
    | none => (if len ≥ 1 ∧ type < 14 ∧ ndim = 1 then { w with misses := w.misses + 1 } else w, none)

/-- `SetRecycleMode`, `src/Recycler.cpp:583-594`: any number but 0 turns the recycler off. -/
def setMode (w : World) (x : Arg) : World × Reply :=
  match long x with
  | none => (w, .error)
  | some n => ({ w with st := { w.st with mode := decide (n ≠ 0) } }, .truth true)

/-- `RecycleSetGarbageCollectTimeout`, `src/Recycler.cpp:925-935`. -/
def setTimeout (w : World) (x : Arg) : World × Reply :=
  match long x with
  | none => (w, .error)
  | some n => ({ w with st := { w.st with timespan := n } }, .number w.st.timespan)

/-- `RecycleGarbageCollectNow`, `src/Recycler.cpp:944-975`: what is counted is read before the collection. -/
def collectNow (w : World) (now : Nat) (x : Arg) : Option (World × Reply) :=
  match long x with
  | none => some (w, .error)
  | some n => (collect w now n true).map fun r => (r.1, .stats w.hits w.misses w.heads w.tails r.2)

/-- `RecycleDump`, `src/Recycler.cpp:499-527`: the sizes are numbers of items, not of bytes. -/
def dump (w : World) : Reply :=
  .number ((slots.map fun p => if w.st.head p.1 p.2.1 ≠ w.st.tail p.1 p.2.1 then ((w.st.item p.1 p.2.1 p.2.2).size : Int) else 0).sum)

/-- The part of `FinalizeNumpyArray` which keeps the array, `src/Recycler.cpp:667-783`, with what it counts: an old array may have to go. -/
def insert (w : World) (a now : Nat) : Option (World × Bool) :=
  (w.st.insert a now).map fun r =>
    if r.2 then
      ({ w with st := r.1, heads := w.heads + 1,
                tails := w.tails + if ((List.range 4).find? fun k => (w.st.item (lzcnt (w.st.info a).len) (w.st.info a).type k).size = 0).isNone then 1 else 0 }, true)
    else ({ w with st := r.1 }, false)

/-- `RecycleNumpy`, `src/Recycler.cpp:828-867`, and `FinalizeNumpyArray`, `src/Recycler.cpp:606-802`. -/
def recycle (w : World) (now : Nat) (x : Given) : Option (World × Reply) :=
  match x with
  | .other => some (w, .error)
  | .array a =>
    if w.st.mode || w.st.refs a ≠ 1 || !(w.st.info a).plain then some (w, .truth false)
    else if w.st.timespan > 0 then
      (insert w a now).bind fun r => (collect r.1 now w.st.timespan false).map fun c => (c.1, .truth r.2)
    else some (w, .truth false)

/-- The loop of `TryRecycleNumpy`, `src/Recycler.cpp:891-915`: that an item is an array is not tested. -/
def tryItems (type : Int) : World → List Item → Option (World × Reply)
  | w, [] => some (w, .nothing)
  | _, .other :: _ => none
  | w, .array dims :: l =>
    (find w dims.length type dims.prod).bind fun r =>
      match r.2 with
      | some a => some (r.1, .recycled a)
      | none => tryItems type r.1 l

/-- `TryRecycleNumpy`, `src/Recycler.cpp:875-921`. -/
def tryRecycle (w : World) (x : Arg) (o : Many) : Option (World × Reply) :=
  match int x with
  | none => some (w, .error)
  | some t =>
    match o with
    | .other => some (w, .nothing)
    | .list l => tryItems t w l

/-- The shape of a new array: an array without dimensions has no pointer to them and gets one, `src/RipTide.cpp:642-648`. -/
def shape (dims : List Nat) : List Nat := if dims = [] then [1] else dims

/-- What `PyArray_New` does and a second attempt after a collection, `src/RipTide.cpp:655-662`: an exception of the first attempt stays set. `item` is the size of the items
of a text or 0. -/
def allocate (w : World) (now : Nat) (first second : Bool) (type : Int) (dims : List Nat) (item : Nat) : Option (World × Reply) :=
  if first then some (w, .made type (shape dims) item false)
  else (collect w now 0 false).map fun r => (r.1, if second then .made type (shape dims) item true else .error)

/-- `AllocateNumpy`, `src/Recycler.cpp:809-822`, with `AllocateNumpyArray`, `src/RipTide.cpp:597-710`. The first argument is an array with these dimensions or something
else. `first` and `second` tell whether numpy makes an array at the first and the second attempt. -/
def allocateNumpy (w : World) (now : Nat) (first second : Bool) (o : Option (List Nat)) (x : Arg) : Option (World × Reply) :=
  match o, int x with
  | some dims, some t =>
    if 18 ≤ t ∧ t ≤ 20 then allocate w now first second t dims 1
    else (find w dims.length t dims.prod).bind fun r =>
      match r.2 with
      | some a => some (r.1, .recycled a)
      | none => allocate r.1 now first second t dims 0
  | _, _ => some (w, .error)

/-! ### Histories -/

/-- What may happen: the calls, and the program handling its arrays. -/
inductive Op where
  | setMode (x : Arg)
  | setTimeout (x : Arg)
  | collectNow (now : Nat) (x : Arg)
  | dump
  | recycle (now : Nat) (x : Given)
  | tryRecycle (x : Arg) (o : Many)
  | allocateNumpy (now : Nat) (first second : Bool) (o : Option (List Nat)) (x : Arg)
  | create (a : Nat) (info : Info)
  | change (a : Nat) (info : Info)
  | incref (a : Nat)
  | decref (a : Nat)

/-- One step, `src/Recycler.cpp:805-967`; `none` is undefined behaviour. What the program does is not part of the code and has no answer. -/
def step (w : World) : Op → Option (World × Reply)
  | .setMode x => some (setMode w x)
  | .setTimeout x => some (setTimeout w x)
  | .collectNow now x => collectNow w now x
  | .dump => some (w, dump w)
  | .recycle now x => recycle w now x
  | .tryRecycle x o => tryRecycle w x o
  | .allocateNumpy now f s o x => allocateNumpy w now f s o x
  | .create a info => (w.st.step (.create a info)).map fun r => ({ w with st := r }, .nothing)
  | .change a info => (w.st.step (.change a info)).map fun r => ({ w with st := r }, .nothing)
  | .incref a => (w.st.step (.incref a)).map fun r => ({ w with st := r }, .nothing)
  | .decref a => (w.st.step (.decref a)).map fun r => ({ w with st := r }, .nothing)

/-- A history, with the answers. -/
def run (w : World) : List Op → Option (World × List Reply)
  | [] => some (w, [])
  | op :: ops => (step w op).bind fun r => (run r.1 ops).map fun q => (q.1, r.2 :: q.2)

end Riptide.Recycle.Call
