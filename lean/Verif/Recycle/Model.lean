/-! # Model of the array recycler of `src/Recycler.cpp`

Arrays are named by numbers. `refs` is `ob_refcnt`; `outside` is not in the code: it counts the references
held by anything but the recycler. -/
namespace Riptide.Recycle

/-- What the recycler looks at in an array, and its byte order, which it does not look at. `plain`: a
`FastArray` without base, writeable, owning its data, contiguous (`src/Recycler.cpp:627-635`, 660, 832-838). -/
structure Info where
  type : Nat
  len : Nat
  ndim : Nat
  plain : Bool
  addr : Nat
  native : Bool
  deriving DecidableEq

/-- `stRecycleItem`, `src/Recycler.h:8-17`; the slot is empty when `size = 0`. -/
structure Item where
  size : Nat
  tsc : Nat
  addr : Nat
  arr : Nat
  deriving DecidableEq

/-- An empty slot. -/
def Item.empty : Item := ⟨0, 0, 0, 0⟩

/-- `g_stRecycleList` (`src/Recycler.cpp:13`, `src/Recycler.h:25-33`) with its 64 by 14 buckets of four slots,
and the arrays of the program. `Head` and `Tail` are unbounded here; in the code they are `int32_t`. -/
structure Rec where
  item : Nat → Nat → Nat → Item
  head : Nat → Nat → Int
  tail : Nat → Nat → Int
  refs : Nat → Nat
  outside : Nat → Nat
  info : Nat → Info
  mode : Bool
  timespan : Int
  lastGc : Nat

/-- Update at one bucket. -/
def upd2 {α : Type} (f : Nat → Nat → α) (i j : Nat) (v : α) : Nat → Nat → α :=
  fun i' j' => if i' = i ∧ j' = j then v else f i' j'

/-- Update of one slot. -/
def updItem (f : Nat → Nat → Nat → Item) (i j k : Nat) (v : Item) : Nat → Nat → Nat → Item :=
  fun i' j' k' => if i' = i ∧ j' = j ∧ k' = k then v else f i' j' k'

/-- Update at one array. -/
def updRef {α : Type} (f : Nat → α) (a : Nat) (v : α) : Nat → α := fun a' => if a' = a then v else f a'

/-- `RemoveFromList`, `src/Recycler.cpp:332-346`. -/
def Rec.remove (s : Rec) (i j k : Nat) : Rec :=
  { s with item := updItem s.item i j k { s.item i j k with size := 0, arr := 0 },
           tail := upd2 s.tail i j (s.tail i j + 1) }

/-- `RefCountNumpyArray(…, false)`, `src/Recycler.cpp:375-388`: the slot is emptied and the reference dropped;
dropping a reference of a freed array is undefined. An array freed here is not recycled again, because
`gRecursion` is set (`src/Recycler.cpp:637-641`). -/
def Rec.release (s : Rec) (i j k : Nat) : Option Rec :=
  let a := (s.item i j k).arr
  if s.refs a = 0 then none else
  some { s.remove i j k with refs := updRef s.refs a (s.refs a - 1) }

/-- One slot of the loop of `GarbageCollect`, `src/Recycler.cpp:452-483`; `span` is `timespan * NANO_BILLION`. -/
def Rec.gcSlot (now : Nat) (span : Int) (s : Rec) (p : Nat × Nat × Nat) : Option Rec :=
  if s.head p.1 p.2.1 ≠ s.tail p.1 p.2.1 ∧ (s.item p.1 p.2.1 p.2.2).size > 0 ∧
      (now : Int) - (s.item p.1 p.2.1 p.2.2).tsc > span then s.release p.1 p.2.1 p.2.2 else some s

/-- All slots in the order of the loops, `src/Recycler.cpp:438-452`.  The test `Head != Tail` is made once per
bucket in the code and before every slot here, which differs only when the bucket has become empty. -/
def slots : List (Nat × Nat × Nat) :=
  (List.range 64).flatMap fun i => (List.range 14).flatMap fun j => (List.range 4).map fun k => (i, j, k)

/-- `GarbageCollect`, `src/Recycler.cpp:413-494`. -/
def Rec.collect (s : Rec) (now : Nat) (timespan : Int) (force : Bool) : Option Rec :=
  if !force && now - s.lastGc < 60000000000 then some s
  else slots.foldlM (Rec.gcSlot now (timespan * 1000000000)) { s with lastGc := now }

/-- `lzcnt_64` of a positive number. -/
def lzcnt (n : Nat) : Nat := 63 - Nat.log2 n

/-- The loop of `RecycleFindArray`, `src/Recycler.cpp:546-571`: `none` when the reference count of a freed array is
read. -/
def findFrom (refs : Nat → Nat) (item : Nat → Item) (len : Nat) : List Nat → Option (Option Nat)
  | [] => some none
  | k :: ks =>
    if (item k).size = len then
      if refs (item k).arr = 0 then none
      else if refs (item k).arr = 1 then some (some k) else findFrom refs item len ks
    else findFrom refs item len ks

/-- `RecycleFindArray(ndim, type, totalSize)`, `src/Recycler.cpp:531-579`: the array leaves the recycler, and its
reference passes to the caller. A negative type is not rejected and indexes outside the table. -/
def Rec.find (s : Rec) (ndim : Nat) (type : Int) (len : Nat) : Option (Rec × Option Nat) :=
  if len ≥ 1 ∧ type < 14 ∧ ndim = 1 then
    if type < 0 then none else
    let i := lzcnt len
    let j := type.toNat
    (findFrom s.refs (s.item i j) len (List.range 4)).map fun r =>
      match r with
      | some k =>
        let a := (s.item i j k).arr
        ({ s.remove i j k with outside := updRef s.outside a (s.outside a + 1) }, some a)
      | none => (s, none)
  else some (s, none)

/-- The choice of a slot when none is empty, `src/Recycler.cpp:709-722`: the first whose array is also held
elsewhere, else the one at `Head & 3`. -/
def victim (refs : Nat → Nat) (item : Nat → Item) (head : Int) : List Nat → Option Nat
  | [] => some (head % 4).toNat
  | k :: ks =>
    if refs (item k).arr = 0 then none
    else if refs (item k).arr ≠ 1 then some k else victim refs item head ks

/-- The slot for a new array, `src/Recycler.cpp:682-731`, emptied. -/
def Rec.slotFor (s : Rec) (i j : Nat) : Option (Rec × Nat) :=
  match (List.range 4).find? fun k => (s.item i j k).size = 0 with
  | some k => some (s, k)
  | none => (victim s.refs (s.item i j) (s.head i j) (List.range 4)).bind fun k =>
      (s.release i j k).map fun s => (s, k)

/-- Storing the array: `src/Recycler.cpp:748-760` and `RefCountNumpyArray(…, true)`, 359-374. -/
def Rec.store (s : Rec) (i j k a now : Nat) : Rec :=
  { s with item := updItem s.item i j k ⟨(s.info a).len, now, (s.info a).addr, a⟩,
           head := upd2 s.head i j (s.head i j + 1),
           refs := updRef s.refs a (s.refs a + 1) }

/-- The insertion, `src/Recycler.cpp:655-790`: the array is kept unless its address is already in the bucket. -/
def Rec.insert (s : Rec) (a now : Nat) : Option (Rec × Bool) :=
  if (s.info a).len ≥ 1 ∧ (s.info a).type < 14 ∧ (s.info a).ndim = 1 then
    let i := lzcnt (s.info a).len
    let j := (s.info a).type
    if (List.range 4).any fun k => (s.item i j k).size ≠ 0 && (s.item i j k).addr = (s.info a).addr then
      some (s, false)
    else (s.slotFor i j).map fun r => (r.1.store i j r.2 a now, true)
  else some (s, false)

/-- `RecycleNumpyInternal` and `FinalizeNumpyArray`, `src/Recycler.cpp:606-802`, 828-843. -/
def Rec.finalize (s : Rec) (a now : Nat) : Option (Rec × Bool) :=
  if s.mode || s.refs a ≠ 1 || !(s.info a).plain then some (s, false)
  else if s.timespan > 0 then
    (s.insert a now).bind fun r => (r.1.collect now s.timespan false).map fun s => (s, r.2)
  else some (s, false)

/-- What may happen: the recycler's entry points, and the program handling its arrays. -/
inductive RecOp
  | finalize (a now : Nat)
  | find (ndim : Nat) (type : Int) (len : Nat)
  | collect (now : Nat) (timespan : Int)
  | create (a : Nat) (info : Info)
  | change (a : Nat) (info : Info)
  | incref (a : Nat)
  | decref (a : Nat)
  | setMode (m : Bool)
  | setTimespan (t : Int)

/-- One step; `none` is undefined behaviour. -/
def Rec.step (s : Rec) : RecOp → Option Rec
  | .finalize a now => (s.finalize a now).map Prod.fst
  | .find ndim type len => (s.find ndim type len).map Prod.fst
  | .collect now t => s.collect now t true
  | .create a info => some { s with refs := updRef s.refs a 1, outside := updRef s.outside a 1,
                                    info := updRef s.info a info }
  | .change a info => some { s with info := updRef s.info a info }
  | .incref a => some { s with refs := updRef s.refs a (s.refs a + 1), outside := updRef s.outside a (s.outside a + 1) }
  | .decref a => some { s with refs := updRef s.refs a (s.refs a - 1), outside := updRef s.outside a (s.outside a - 1) }
  | .setMode m => some { s with mode := m }
  | .setTimespan t => some { s with timespan := t }

/-- A history. -/
def Rec.run (s : Rec) : List RecOp → Option Rec
  | [] => some s
  | op :: ops => (s.step op).bind fun s => s.run ops

/-- `InitRecycler`, `src/Recycler.cpp:979-985`, and the default time span of line 23. -/
def Rec.init : Rec :=
  ⟨fun _ _ _ => .empty, fun _ _ => 0, fun _ _ => 0, fun _ => 0, fun _ => 0, fun _ => ⟨0, 0, 0, false, 0, true⟩,
    false, 150, 0⟩

end Riptide.Recycle
