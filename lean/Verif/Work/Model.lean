/-!
# Worker pool: block geometry and the work-item protocol

Models `stMATH_WORKER_ITEM` and `stWorkerRing` (`src/MathThreads.h`), `WorkerThreadFunction`
(`src/MathThreads.cpp`) and `CMathWorker::WorkMain` / `SegmentBins` (`src/MathWorker.h`).
-/

namespace Riptide.Work

/-! ## Block geometry -/

/-- `WORK_ITEM_CHUNK`, `src/MathThreads.h:166`. -/
def chunk : Nat := 0x4000

/-- `WORK_ITEM_BIG`, `src/MathThreads.h:167`. -/
def big : Nat := chunk * 2

/-- `WORK_ITEM_MASK`, `src/MathThreads.h:168`. -/
def mask : Nat := chunk - 1

/-- `BlockLast` in generic mode, `src/MathWorker.h:417-421` (`(len + (BlockSize - 1)) / BlockSize`). -/
def blockLastGeneric (len blockSize : Nat) : Nat := (len + (blockSize - 1)) / blockSize

/-- Length returned by `GetNextWorkBlock` for a block below `BlockLast`,
`src/MathThreads.h:239-266`.  Note that the length of the last block is computed with the fixed
`WORK_ITEM_MASK`, not with `BlockSize`. -/
def blockLen (total blockSize blockLast b : Nat) : Nat :=
  if b + 1 = blockLast then
    if total &&& mask ≠ 0 then total &&& mask else blockSize
  else blockSize

/-- Rows `[start, start+length)` processed for block `b` by `MultiThreadedChunkCallback`,
`src/MathWorker.h:239-261` (`start = BlockSize * workBlock`). -/
def blockRows (total blockSize b : Nat) : List Nat :=
  List.range' (blockSize * b) (blockLen total blockSize (blockLastGeneric total blockSize) b)

/-! ## Bands of bins -/

/-- The loop of `SegmentBins`, `src/MathWorker.h:331-353`, also found in
`GroupBySingleOpMultiBands`, `src/GroupBy.cpp:4336-4368`.
`k` iterations remain, `low` is the running low bin, `rem` the remainder still to be given out. -/
def segLoop (dividend : Nat) : (k low rem : Nat) → List (Nat × Nat)
  | 0, _, _ => []
  | k + 1, low, rem =>
    let high := low + dividend
    if rem > 0 then (low, high + 1) :: segLoop dividend k (high + 1) (rem - 1)
    else (low, high) :: segLoop dividend k high rem

/-- Number of cores used by `SegmentBins`, `src/MathWorker.h:310-325`; `maxCores = 0` (or negative)
means "no clamp". -/
def segCores (bins futexWakeup maxCores : Nat) : Nat :=
  let cores := if maxCores > 0 ∧ futexWakeup > maxCores then maxCores else futexWakeup
  if bins < cores then bins else cores

/-- `SegmentBins`, `src/MathWorker.h:310-360`: the list of `[BinLow, BinHigh)`. -/
def segmentBins (bins futexWakeup maxCores : Nat) : List (Nat × Nat) :=
  let cores := segCores bins futexWakeup maxCores
  if cores > 0 then segLoop (bins / cores) cores 0 (bins % cores) else []

/-! ## The protocol

One submitting (main) thread and any number of workers.  Steps are the atomic operations of the
code; everything between two atomic operations is local to one thread. -/

/-- Where a thread is inside `DoWork` (the `while ((len = GetNextWorkBlock()) > 0)` loops of
`src/MathWorker.h:179-261`): about to request a block, or running the callback on block `b`. -/
inductive Loop where
  | fetch
  | run (b : Nat)
  deriving DecidableEq, Repr

/-- Program counter of a worker, `src/MathThreads.cpp:100-174`. -/
inductive WPc where
  /-- inside the futex wait, *not* counted in `ThreadsAwakened` (line 150) -/
  | asleep
  /-- counted, at the top of the loop (line 101) -/
  | awake
  /-- has read `WorkIndex = w` (line 106) -/
  | sawIndex (w : Nat)
  /-- has seen `w > WorkIndexCompleted` (line 112), about to take a wake-up ticket -/
  | ticket
  /-- won a ticket (line 116), about to fetch the work item -/
  | claim
  /-- inside `DoWork` (line 120); `did` is `didSomeWork` -/
  | inWork (l : Loop) (did : Bool)
  /-- `didSomeWork = false`, about to decrement `ThreadsAwakened` (line 127) -/
  | noWork
  deriving DecidableEq, Repr

/-- Program counter of the main thread in `WorkMain`, `src/MathWorker.h:396-474`. -/
inductive MPc where
  /-- outside `WorkMain`: Python is running and the caller's buffers may be gone -/
  | idle
  /-- inside `SetWorkItem`, `WorkIndex` incremented but `ThreadWakeup` not yet set -/
  | published
  /-- inside its own `DoWork(-1, 0)` -/
  | inWork (l : Loop)
  /-- in the `while (BlocksCompleted < BlockLast && !interrupted)` loop -/
  | waiting
  /-- after `CompleteWorkItem`, waiting for `ThreadsAwakened = 0` -/
  | joining
  deriving DecidableEq, Repr

/-- Shared state.  `finished` is a ghost log of the blocks of the latest operation whose callback
has returned. -/
structure St where
  workIndex : Nat
  completed : Nat
  awakened : Int
  wakeup : Int
  interrupted : Bool
  blockNext : Nat
  blockLast : Nat
  blocksCompleted : Nat
  main : MPc
  workers : List WPc
  finished : List Nat
  deriving DecidableEq, Repr

/-- Is a worker counted in `ThreadsAwakened`? -/
def WPc.counted : WPc → Bool
  | .asleep => false
  | _ => true

/-- Block currently being run by a worker. -/
def WPc.running : WPc → Option Nat
  | .inWork (.run b) _ => some b
  | _ => none

/-- Block currently being run by the main thread. -/
def MPc.running : MPc → Option Nat
  | .inWork (.run b) => some b
  | _ => none

/-- Steps that come from outside the protocol: the signal handler, the program submitting a new
operation, and a sleeping worker waking up. -/
inductive EnvStep : St → St → Prop where
  /-- Signal handler, `src/interrupt.cpp:11-14`: may fire at any time. -/
  | interrupt (s : St) : EnvStep s { s with interrupted := true }
  /-- `interruptible_section` clears the flag, always outside `WorkMain`,
  `src/interrupt.cpp:17-31`. -/
  | clearInterrupt (s : St) (h : s.main = .idle) : EnvStep s { s with interrupted := false }
  /-- `WorkMain` up to the increment of `WorkIndex`: the fields of the item are written before the
  atomic increment that publishes it, `src/MathWorker.h:399-441`, `src/MathThreads.h:344`. -/
  | submit (s : St) (last : Nat) (h : s.main = .idle) :
      EnvStep s { s with blockLast := last, blocksCompleted := 0, blockNext := 0, finished := [],
                         workIndex := s.workIndex + 1, main := .published }
  /-- A worker leaves the futex wait (woken, value changed, or spuriously) and increments
  `ThreadsAwakened`, `src/MathThreads.cpp:152-172`. -/
  | wWake (s : St) (i : Nat) (h : s.workers[i]? = some .asleep) :
      EnvStep s { s with awakened := s.awakened + 1, workers := s.workers.set i .awake }

/-- One atomic step of a thread taking part in the protocol.

Simplifications: one work item instead of a ring of 1024 (only one operation is active at a time,
which `Props.lean` proves is enforced by the join: `no_worker_touches_item_outside_operation`);
the futex is modelled by letting a sleeping worker wake at any time (`EnvStep.wWake`); worker
creation and cancellation are not modelled, the number of workers is fixed. -/
inductive ThreadStep : St → St → Prop where
  /-- `ThreadWakeup = maxThreadsToWake`, `src/MathThreads.h:346`. -/
  | mSetWakeup (s : St) (k : Int) (h : s.main = .published) :
      ThreadStep s { s with wakeup := k, main := .inWork .fetch }
  /-- Main thread gets a block: `GetWorkBlock` + test, `src/MathThreads.h:203-266`. -/
  | mFetch (s : St) (h : s.main = .inWork .fetch)
      (ok : s.blockNext < s.blockLast ∧ s.interrupted = false) :
      ThreadStep s { s with blockNext := s.blockNext + 1, main := .inWork (.run s.blockNext) }
  /-- Main thread finds nothing to do and leaves `DoWork`. -/
  | mFetchNone (s : St) (h : s.main = .inWork .fetch)
      (no : ¬ (s.blockNext < s.blockLast ∧ s.interrupted = false)) :
      ThreadStep s { s with blockNext := s.blockNext + 1, main := .waiting }
  /-- Main thread's callback returns and it calls `CompleteWorkBlock`,
  `src/MathWorker.h:192-195`. -/
  | mComplete (s : St) (b : Nat) (h : s.main = .inWork (.run b)) :
      ThreadStep s { s with blocksCompleted := s.blocksCompleted + 1, main := .inWork .fetch,
                            finished := b :: s.finished }
  /-- Wait loop ends, `CompleteWorkItem`, `src/MathWorker.h:445-466`. -/
  | mWaitDone (s : St) (h : s.main = .waiting)
      (ok : s.blockLast ≤ s.blocksCompleted ∨ s.interrupted = true) :
      ThreadStep s { s with completed := s.completed + 1, main := .joining }
  /-- Join loop ends and `WorkMain` returns, `src/MathWorker.h:468-473`. -/
  | mReturn (s : St) (h : s.main = .joining) (ok : s.awakened = 0) :
      ThreadStep s { s with main := .idle }
  /-- A worker reads `WorkIndex`, `src/MathThreads.cpp:110`. -/
  | wReadIndex (s : St) (i : Nat) (h : s.workers[i]? = some .awake) :
      ThreadStep s { s with workers := s.workers.set i (.sawIndex s.workIndex) }
  /-- A worker reads `WorkIndexCompleted` and compares, `src/MathThreads.cpp:111-116`. -/
  | wReadCompleted (s : St) (i w : Nat) (h : s.workers[i]? = some (.sawIndex w)) :
      ThreadStep s { s with
        workers := s.workers.set i (if w > s.completed then .ticket else .noWork) }
  /-- `InterlockedDecrement64(&ThreadWakeup) >= 0`, `src/MathThreads.cpp:119`. -/
  | wTicket (s : St) (i : Nat) (h : s.workers[i]? = some .ticket) :
      ThreadStep s { s with
        wakeup := s.wakeup - 1
        workers := s.workers.set i (if s.wakeup - 1 ≥ 0 then .claim else .noWork) }
  /-- `GetExistingWorkItem` and enter `DoWork`, `src/MathThreads.cpp:122-124`. -/
  | wEnter (s : St) (i : Nat) (h : s.workers[i]? = some .claim) :
      ThreadStep s { s with workers := s.workers.set i (.inWork .fetch false) }
  /-- A worker gets a block. -/
  | wFetch (s : St) (i : Nat) (d : Bool) (h : s.workers[i]? = some (.inWork .fetch d))
      (ok : s.blockNext < s.blockLast ∧ s.interrupted = false) :
      ThreadStep s { s with blockNext := s.blockNext + 1,
                            workers := s.workers.set i (.inWork (.run s.blockNext) d) }
  /-- A worker finds nothing to do; it loops if it did some work, otherwise it goes to sleep. -/
  | wFetchNone (s : St) (i : Nat) (d : Bool) (h : s.workers[i]? = some (.inWork .fetch d))
      (no : ¬ (s.blockNext < s.blockLast ∧ s.interrupted = false)) :
      ThreadStep s { s with blockNext := s.blockNext + 1,
                            workers := s.workers.set i (if d then .awake else .noWork) }
  /-- A worker's callback returns and it calls `CompleteWorkBlock`. -/
  | wComplete (s : St) (i b : Nat) (d : Bool) (h : s.workers[i]? = some (.inWork (.run b) d)) :
      ThreadStep s { s with blocksCompleted := s.blocksCompleted + 1,
                            finished := b :: s.finished,
                            workers := s.workers.set i (.inWork .fetch true) }
  /-- `--ThreadsAwakened` before sleeping, `src/MathThreads.cpp:131`. -/
  | wSleep (s : St) (i : Nat) (h : s.workers[i]? = some .noWork) :
      ThreadStep s { s with awakened := s.awakened - 1, workers := s.workers.set i .asleep }

/-- Any step. -/
def Step (s t : St) : Prop := EnvStep s t ∨ ThreadStep s t

/-- Initial state with `n` workers, none of them awake (their first `++ThreadsAwakened`,
`src/MathThreads.cpp:100`, is the same as a wake-up). -/
def init (n : Nat) : St :=
  { workIndex := 0, completed := 0, awakened := 0, wakeup := 0, interrupted := false,
    blockNext := 0, blockLast := 0, blocksCompleted := 0, main := .idle,
    workers := List.replicate n .asleep, finished := [] }

/-- States reachable under some schedule. -/
inductive Reachable (n : Nat) : St → Prop where
  | init : Reachable n (init n)
  | step {s t : St} : Reachable n s → Step s t → Reachable n t

/-- Blocks whose callback is being executed right now by any thread. -/
def St.inProgress (s : St) : List Nat := s.main.running.toList ++ s.workers.filterMap WPc.running

/-! ## Entry points -/

/-- One complete, uninterrupted pass through `WorkMain` that finished the items `calls`
(in completion order), for an operation with `last` items. -/
def PoolRun (workers last : Nat) (calls : List Nat) : Prop :=
  ∃ s t, Reachable workers s ∧ s.main = .joining ∧ s.interrupted = false ∧ s.blockLast = last ∧
    ThreadStep s t ∧ t.main = .idle ∧ calls = t.finished

/-- `DoMultiThreadedChunkWork`, `src/MathWorker.h:267-292` with `GetWorkItem` 380-392: the rows
for which the callback ran, in completion order. -/
inductive ChunkWork (workers len : Nat) (noThreading : Bool) : List Nat → Prop where
  | direct (h : len < big ∨ noThreading = true) : ChunkWork workers len noThreading (List.range' 0 len)
  | pool (calls : List Nat) (h1 : ¬ (len < big ∨ noThreading = true))
      (h2 : PoolRun workers (blockLastGeneric len chunk) calls) :
      ChunkWork workers len noThreading (calls.flatMap (blockRows len chunk))

/-- How `DoMultiThreadedChunkWork` was carried out (`src/MathWorker.h:267-292`): `none` is the
single direct call over `[0, len)`; `some calls` is the pool run whose blocks finished in the order
`calls`.  Used by the models of the individual operations, whose callback is executed once per
block (callbacks of different blocks write disjoint memory, so running them one after the other in
completion order loses no behaviour; each operation's model shows the writes explicitly). -/
inductive ChunkSched (workers len : Nat) (noThreading : Bool) : Option (List Nat) → Prop where
  | direct (h : len < big ∨ noThreading = true) : ChunkSched workers len noThreading none
  | pool (calls : List Nat) (h1 : ¬ (len < big ∨ noThreading = true))
      (h2 : PoolRun workers (blockLastGeneric len chunk) calls) :
      ChunkSched workers len noThreading (some calls)

/-- `DoMultiThreadedWork`, `src/MathWorker.h:203-231` with `GetWorkItemCount` 365-376: the items
for which the callback ran, in completion order. -/
inductive CountedWork (workers items : Nat) (noThreading : Bool) : List Nat → Prop where
  | direct (h : noThreading = true) : CountedWork workers items noThreading (List.range items)
  | pool (calls : List Nat) (h1 : noThreading = false) (h2 : PoolRun workers items calls) :
      CountedWork workers items noThreading calls

end Riptide.Work
