/-! # Model of the queue of log records, `src/logging/waiting_deque.h`

A transition system over the steps of the threads. The mutex is held only inside `pop_front` across several
steps; the critical sections of the other functions are one step each, possible only while the mutex is free.
`cancel_wait` and `set_max_size` take no lock. Simplification: `wait_` and `max_size_` are plain variables
read under the lock and written without it, a data race in C++; the steps here are
sequentially consistent. -/
namespace Riptide.LogQueue

/-- Where the consumer is in `pop_front`, `src/logging/waiting_deque.h:12-30`: not in it, about to test the predicate
(holding the mutex), about to take (holding the mutex), about to block (holding the mutex), blocked on the
condition variable, or woken and waiting for the mutex. -/
inductive Phase
  | idle | testing | taking | blocking | blocked | woken
  deriving DecidableEq

/-- The state. `deque`, `wait`, `max`: the members (lines 66-70). `pending`: calls of `notify_one` still to be made
by threads that have already pushed or cancelled. The other fields only record the past: accepted
pushes; the records removed, with `true` for those delivered; the pushes turned away, with the length and
the limit at that time; the results of `pop_front`; `lost`, whether a cancellation fell between the consumer's
test and its blocking. -/
structure Q (α : Type) where
  deque : List α
  wait : Bool
  max : Nat
  phase : Phase
  pending : Nat
  accepted : List α
  removed : List (α × Bool)
  dropped : List (α × Nat × Nat)
  results : List (Option α)
  lost : Bool

/-- The mutex is held by the consumer. -/
def Q.locked {α : Type} (s : Q α) : Bool :=
  match s.phase with
  | .testing | .taking | .blocking => true
  | .idle | .blocked | .woken => false

/-- The steps. -/
inductive Step (α : Type)
  | push (t : α)        -- the critical section of `push_back`
  | notify              -- a `notify_one`
  | cancel              -- `wait_ = false` of `cancel_wait`
  | clear               -- `clear`
  | setMax (n : Nat)    -- `set_max_size`
  | spurious            -- a wake-up without notification
  | consumer            -- the next step of `pop_front`
  deriving DecidableEq

/-- `push_back`, lines 32-43: a record is dropped silently when the queue is full; otherwise `notify_one` follows. -/
def Q.push {α : Type} (s : Q α) (t : α) : Q α :=
  if s.deque.length ≥ s.max then { s with dropped := s.dropped ++ [(t, s.deque.length, s.max)] }
  else { s with deque := s.deque ++ [t], accepted := s.accepted ++ [t], pending := s.pending + 1 }

/-- `notify_one`: wakes the consumer if it is blocked; otherwise nothing happens. -/
def Q.notify {α : Type} (s : Q α) : Q α :=
  { s with pending := s.pending - 1,
           phase := if s.phase = .blocked then .woken else s.phase,
           lost := if s.phase = .blocked then false else s.lost }

/-- `cancel_wait`, lines 57-61, up to its notification. -/
def Q.cancel {α : Type} (s : Q α) : Q α :=
  { s with wait := false, pending := s.pending + 1, lost := s.lost || decide (s.phase = .blocking) }

/-- The end of `pop_front`, lines 21-29. -/
def Q.take {α : Type} (s : Q α) : Q α :=
  match s.deque with
  | [] => { s with wait := true, phase := .idle, results := s.results ++ [none] }
  | t :: rest => { s with deque := rest, phase := .idle, results := s.results ++ [some t],
                          removed := s.removed ++ [(t, true)] }

/-- The consumer's next step. `wait` on the condition variable: test; if it fails, release the mutex and block
(atomically); once woken, take the mutex and test again (lines 14-19). -/
def Q.consume {α : Type} (s : Q α) : Option (Q α) :=
  match s.phase with
  | .idle => some { s with phase := .testing }
  | .testing =>
    if !s.deque.isEmpty || !s.wait then some { s with phase := .taking } else some { s with phase := .blocking }
  | .taking => some s.take
  | .blocking => some { s with phase := .blocked }
  | .blocked => none
  | .woken => some { s with phase := .testing }

/-- One step of the system; `none`: not possible in this state. -/
def Q.step {α : Type} (s : Q α) : Step α → Option (Q α)
  | .push t => if s.locked then none else some (s.push t)
  | .notify => if s.pending = 0 then none else some s.notify
  | .cancel => some s.cancel
  | .clear => if s.locked then none
      else some { s with deque := [], removed := s.removed ++ s.deque.map fun t => (t, false) }
  | .setMax n => some { s with max := n }
  | .spurious => if s.phase = .blocked then some { s with phase := .woken, lost := false } else none
  | .consumer => s.consume

/-- An interleaving. -/
def Q.run {α : Type} (s : Q α) : List (Step α) → Option (Q α)
  | [] => some s
  | e :: es => (s.step e).bind fun s => s.run es

/-- The start: empty, `wait_ = true` (line 66). `max_size_` is not initialised by the code; `enable` sets it before
the first push (`logging_service.h:116`). -/
def Q.init (α : Type) (max : Nat) : Q α := ⟨[], true, max, .idle, 0, [], [], [], [], false⟩

end Riptide.LogQueue
