import Verif.Shm.Call
/-! # What is said about the life of shares -/
namespace Riptide.Shm

/-- The system gives all that is asked for. -/
def Env.fine : Env := ⟨true, true, true, true⟩

/-- Descriptor 0 is taken, as it is by the standard input, and some other one is free. -/
def Ready (fds : List (Option Fd)) : Prop := (∃ d, fds[0]? = some (some d)) ∧ ∃ f : Nat, fds[f]? = some none

/-- The lowest descriptor which is free. -/
def IsLowest (fds : List (Option Fd)) (f : Nat) : Prop := fds[f]? = some none ∧ ∀ g < f, fds[g]? ≠ some none

/-- The name is one which the system takes: not more than 255 bytes and no `/`. -/
def GoodName (n : Name) : Prop := n.length ≤ 255 ∧ 47 ∉ n

/-- The user may give this name to a new object: there is none with it, or it is the user's own. -/
def Own (k : Kernel) (u : Nat) (n : Name) : Prop :=
  k.names n = none ∨ ∃ o x, k.names n = some o ∧ k.objs[o]? = some x ∧ x.owner = u

/-- What is recorded under a name can be counted: nothing is, or a structure which was not given back. -/
def Countable (p : Proc) (n : Name) : Prop := ∀ v, p.shares n = some v → ∃ x, p.views[v]? = some x ∧ x.live = true

/-- A user may read an object. -/
def Readable (u : Nat) (x : Obj) : Prop := x.owner = u ∨ x.read = true

/-- A user may read and write an object. -/
def Writable (u : Nat) (x : Obj) : Prop := x.owner = u ∨ (x.read = true ∧ x.write = true)

/-- What others share stays: objects are only added and names other than `n` stay. -/
def KernelKept (n : Name) (k k' : Kernel) : Prop := (∃ new, k'.objs = k.objs ++ new) ∧ ∀ m, m ≠ n → k'.names m = k.names m

/-- What a process holds stays: descriptors stay open and structures stay as they are up to their counters. -/
def ProcKept (p p' : Proc) : Prop :=
  (∀ (f : Nat) (d : Fd), p.fds[f]? = some (some d) → p'.fds[f]? = some (some d)) ∧
    ∀ (v : Nat) (x : View), p.views[v]? = some x → ∃ c, p'.views[v]? = some { x with count := c }

/-- The name of a call. -/
def Call.name : Call → Name
  | .save n _ _ _ => n
  | .load n _ _ _ => n

/-- There is memory for the structures of a call. -/
def Call.heapOk : Call → Prop
  | .save _ _ _ e => e.heap = true
  | .load _ _ _ e => e.heap = true

/-- The call may make a share: all do but those which ask for information only. -/
def Call.makes : Call → Prop
  | .save _ _ _ _ => True
  | .load _ info _ _ => info = false

/-- The call gives back the structure of a share it made: saving does, and reading of a file which is not good. -/
def Call.frees : Call → Prop
  | .save _ _ _ _ => True
  | .load _ info file _ => info = false ∧ ∃ x, file = some x ∧ x.good = false

/-- No process makes a share with a name after a call which gave back a structure for that name. -/
def OnceFreed (cs : List (Nat × Call)) : Prop :=
  cs.Pairwise fun a b => a.2.frees → b.2.makes → ¬ (a.1 = b.1 ∧ a.2.name = b.2.name)

/-- A process at its start. -/
def Fresh (p : Proc) : Prop := p.views = [] ∧ ∀ n, p.shares n = none

/-- How many descriptors are free. -/
def freeFds (p : Proc) : Nat := p.fds.countP fun f => f.isNone

end Riptide.Shm
