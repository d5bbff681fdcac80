/-! # Model of the recycled work space of `src/Recycler.cpp`

`WorkSpaceAllocLarge` and `WorkSpaceAllocSmall` are the same code over two separate globals; one copy is
modelled. -/
namespace Riptide.Recycle

/-- The state: which blocks are allocated and of what size, the recycled block with its recorded size
(`g_pHashTableAny`, `g_CurrentAllocHashTable`, `src/Recycler.cpp:38-40`), the mode (`NoThreading || NoCaching`) and
the blocks held by users with the size they asked for. Block names are never reused (a simplification:
`malloc` may reuse an address). -/
structure Ws where
  heap : Nat → Option Nat
  next : Nat
  global : Option (Nat × Nat)
  off : Bool
  live : List (Nat × Nat)

/-- `WORKSPACE_ALLOC`: a new block (`malloc` failing is not modelled). -/
def Ws.malloc (s : Ws) (size : Nat) : Ws × Nat :=
  ({ s with heap := fun p => if p = s.next then some size else s.heap p, next := s.next + 1 }, s.next)

/-- `WORKSPACE_FREE`: freeing a block which is not allocated is undefined. -/
def Ws.mfree (s : Ws) (p : Nat) : Option Ws :=
  (s.heap p).map fun _ => { s with heap := fun q => if q = p then none else s.heap q }

/-- `FreeWorkSpaceAllocLarge(g_pHashTableAny)`, `src/Recycler.cpp:98-115`: both callers pass the global
pointer. In the mode without caching the block is freed but the global is not cleared. -/
def Ws.freeGlobal (s : Ws) : Option Ws :=
  match s.global with
  | none => some s
  | some g => if s.off then s.mfree g.1 else (s.mfree g.1).map fun s => { s with global := none }

/-- `WorkSpaceAllocLarge`, `src/Recycler.cpp:143-173`. -/
def Ws.alloc (s : Ws) (size : Nat) : Option (Ws × Nat) :=
  if s.off then
    let r := s.malloc size
    some ({ r.1 with live := (r.2, size) :: r.1.live }, r.2)
  else match s.global with
    | some g =>
      if size ≤ g.2 then some ({ s with live := (g.1, size) :: s.live }, g.1)
      else
        let r := s.malloc size
        r.1.freeGlobal.map fun s' => ({ s' with live := (r.2, size) :: s'.live }, r.2)
    | none =>
      let r := s.malloc size
      some ({ r.1 with live := (r.2, size) :: r.1.live }, r.2)

/-- `WorkSpaceFreeAllocLarge(p, size)`, `src/Recycler.cpp:214-270`, called by the holder of `p`. -/
def Ws.free (s : Ws) (p size : Nat) : Option Ws :=
  let s := { s with live := s.live.erase (p, size) }
  if s.off then s.mfree p
  else match s.global with
    | none => some { s with global := some (p, size) }
    | some g =>
      if g.1 ≠ p then
        if size > g.2 then (s.mfree g.1).map fun s => { s with global := some (p, size) }
        else s.mfree p
      else some s

/-- What the rest of the library does: allocate, free a held block, `RecycleGarbageCollectNow`
(`src/Recycler.cpp:967-968`), switch `NoThreading` or `NoCaching` (`src/RipTide.cpp:1341`,
`src/MultiKey.cpp:1473-1480`, `src/HashLinear.cpp` around the partitioned group-by). -/
inductive WsOp
  | alloc (size : Nat)
  | free (p size : Nat)
  | collect
  | mode (off : Bool)
  deriving DecidableEq

/-- One step; `none`: undefined behaviour, or a call the library does not make (freeing a block not held). -/
def Ws.step (s : Ws) : WsOp → Option Ws
  | .alloc size => (s.alloc size).map Prod.fst
  | .free p size => if (p, size) ∈ s.live then s.free p size else none
  | .collect => s.freeGlobal
  | .mode b => some { s with off := b }

/-- A history. -/
def Ws.run (s : Ws) : List WsOp → Option Ws
  | [] => some s
  | op :: ops => (s.step op).bind fun s => s.run ops

/-- At the start nothing is allocated, `src/Recycler.cpp:35-40`. -/
def Ws.init : Ws := ⟨fun _ => none, 0, none, false, []⟩

end Riptide.Recycle
