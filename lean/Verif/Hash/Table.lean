/-! # Model of the linear-probing hash table of `src/HashLinear.cpp`

The table (`pHashTableAny`) and its bit field (`pBitFields`: one "occupied" bit per slot) are one list
of optional entries.  Hash values are arguments: nothing is assumed about how they are spread. -/
namespace Riptide.Hash

/-- How an operation can fail: the `runtime_error` "About to go into infinite loop", or an access
outside the table (undefined behaviour). -/
inductive Fault
  | full
  | oob
  deriving DecidableEq, Repr

/-- The table: `none` is a slot whose bit is clear. -/
abbrev Slots (K V : Type) := List (Option (K × V))

/-- Where the probing loop stops. -/
inductive Probe (K V : Type)
  /-- a slot with a matching key -/
  | hit (p : Nat) (k : K) (v : V)
  /-- a free slot -/
  | empty (p : Nat)
  /-- the loop came back to where it started -/
  | full
  /-- a slot outside the table was read -/
  | oob
  /-- the fuel ran out (proved impossible) -/
  | stuck

/-- The probing loop, `InternalGetLocation`, `src/HashLinear.cpp:552-585`, `InternalSetLocation`,
627-659, and the copies of it in `MakeHashLocation` (1391-1590), `IsMember` (1750-1916) and the float,
string and multi-key variants: next slot with wrap-around at `size`, give up when back at `h`. -/
def probe {K V : Type} (tbl : Slots K V) (size : Nat) (m : K → Bool) (h : Nat) :
    Nat → Nat → Probe K V
  | 0, _ => .stuck
  | fuel + 1, pos =>
    match tbl[pos]? with
    | none => .oob
    | some none => .empty pos
    | some (some (k, v)) =>
      if m k then .hit pos k v
      else
        let next := if pos + 1 ≥ size then 0 else pos + 1
        if next = h then .full else probe tbl size m h fuel next

/-- Looking a key up: the stored value, if any (`InternalGetLocation`). -/
def find {K V : Type} (tbl : Slots K V) (m : K → Bool) (h : Nat) : Except Fault (Option V) :=
  match probe tbl tbl.length m h tbl.length h with
  | .hit _ _ v => .ok (some v)
  | .empty _ => .ok none
  | .full => .error .full
  | .oob => .error .oob
  | .stuck => .error .oob

/-- Looking a key up and storing: on a match the stored value `v` is replaced by `f v` (insertion
loops use `f = id`), a new key is stored in the free slot found with value `v0`.  Returns the old value
too. -/
def upsert {K V : Type} (tbl : Slots K V) (m : K → Bool) (h : Nat) (k0 : K) (v0 : V) (f : V → V) :
    Except Fault (Slots K V × Option V) :=
  match probe tbl tbl.length m h tbl.length h with
  | .hit p k v => .ok (tbl.set p (some (k, f v)), some v)
  | .empty p => .ok (tbl.set p (some (k0, v0)), none)
  | .full => .error .full
  | .oob => .error .oob
  | .stuck => .error .oob

/-- A fresh table: all bits clear, `AllocAndZeroBitFields`, `src/HashLinear.cpp:432-446`. -/
def fresh (K V : Type) (size : Nat) : Slots K V := List.replicate size none

end Riptide.Hash
