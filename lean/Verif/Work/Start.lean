import Verif.Work.Model

/-! # How the pool of workers comes to life

How many workers there are (`src/MathWorker.cpp`, `GetProcessAffinityMask` and `GetProcCount`),
how many of them an operation may wake (`SetFutexWakeup`), how they are started when the module is
loaded (`StartWorkerThreads`), and what a forked child inherits. -/

namespace Riptide.Work

/-! ## The number of workers -/

/-- What the kernel says about the processors this process may run on: `sched_getaffinity` with a
set of 1024 bits, `src/MathWorker.cpp:374-375`.  `none` when the call fails (a machine with more
possible processors than the set has bits); the code ignores the failure and goes on with a set
which nobody has written. -/
abbrev CpuSet := Option (Nat → Bool)

/-- The loop which turns the set into a mask, `src/MathWorker.cpp:380-389`: `k` processors are
left, `i` is the next one and `bitpos` its bit. -/
def maskLoop (isset : Nat → Bool) : (k i : Nat) → (mask bitpos : BitVec 64) → BitVec 64
  | 0, _, mask, _ => mask
  | k + 1, i, mask, bitpos =>
    maskLoop isset k (i + 1) (if isset i then mask ||| bitpos else mask) (bitpos <<< 1)

/-- The mask of the process and that of the system, `GetProcessAffinityMask`,
`src/MathWorker.cpp:371-406`.  When the mask is empty the mask of the system is set, twice, and
that of the process stays empty (391-395). -/
def affinityMasks (isset : Nat → Bool) : BitVec 64 × BitVec 64 :=
  let m := maskLoop isset 63 0 0 1
  (m, if m = 0 then 0xFF else m)

/-- `while (mask1 != 0)`, `src/MathWorker.cpp:485-490`; the fuel is the number of bits. -/
def countLoop : (fuel : Nat) → (mask : BitVec 64) → (count : Nat) → Nat
  | 0, _, count => count
  | fuel + 1, mask, count =>
    if mask = 0 then count
    else countLoop fuel (mask >>> 1) (if mask &&& 1 ≠ 0 then count + 1 else count)

/-- `MAX_THREADS_WHEN_CANNOT_DETECT`, `src/CommonInc.h:425`. -/
def cannotDetect : Nat := 5

/-- `MAX_THREADS_ALLOWED`, `src/CommonInc.h:428`. -/
def maxThreads : Nat := 31

/-- The limits put on the count, `src/MathWorker.cpp:495-501`. -/
def limitCount (count : Nat) : Nat :=
  let count := if count = 0 then cannotDetect else count
  if count > maxThreads then maxThreads else count

/-- `GetProcCount`, `src/MathWorker.cpp:474-502`, which the constructor keeps as
`WorkerThreadCount` (`src/MathWorker.h:102`).  Undefined (`none`) when the set was never written. -/
def procCount (cpus : CpuSet) : Option Nat := do
  let isset ← cpus
  pure (limitCount (countLoop 64 (affinityMasks isset).1 0))

/-- The number of handles of threads which the worker has room for, `MAX_WORKER_HANDLES`,
`src/MathWorker.h:80`. -/
def maxHandles : Nat := 64

/-! ## The number of workers woken -/

/-- `FUTEX_WAKE_DEFAULT`, `src/CommonInc.h:430`. -/
def wakeDefault : Int := 11

/-- `FUTEX_WAKE_MAX`, `src/CommonInc.h:431`. -/
def wakeMax : Int := 31

/-- The cast of an `int64_t` to `int`, which keeps the low 32 bits. -/
def toInt32 (v : Int) : Int := (v + 2 ^ 31) % 2 ^ 32 - 2 ^ 31

/-- `SetFutexWakeup`, `src/MathWorker.h:138-156`: the new setting. -/
def clampWake (how : Int) : Int :=
  let how := if how < 1 then 1 else how
  if how > wakeMax then wakeMax else how

/-- The Python call `SetThreadWakeUp`, `src/RipTide.cpp:1577-1590`: the new setting and the answer,
which is the setting before. -/
def setWakeUp (setting v : Int) : Int × Int := (clampWake (toInt32 v), setting)

/-- Any number of calls of `SetThreadWakeUp`, from the setting `Init` left
(`src/MathThreads.h:310-318`): the setting at the end. -/
def wakeSetting (calls : List Int) : Int :=
  calls.foldl (fun s v => (setWakeUp s v).1) wakeDefault

/-- How many workers an operation wakes, from the number asked for, `src/MathWorker.h:401-416`. -/
def wakeCount (asked setting : Int) : Int :=
  if asked ≤ 0 then setting else if asked < setting then asked else setting

/-! ## Starting the workers -/

/-- Where a new worker is, `src/MathThreads.cpp:80-173`. -/
inductive TPc where
  /-- created, but has not run yet -/
  | fresh
  /-- has taken its number from `ThreadsRunning` (line 85), not yet counted as awake -/
  | numbered (core : Nat)
  /-- counted in `ThreadsAwakened` (line 100 or 172) -/
  | awake (core : Nat)
  /-- has found no work (lines 110-126); about to be counted as asleep -/
  | noWork (core : Nat)
  /-- in the wait (line 159) -/
  | asleep (core : Nat)
  deriving DecidableEq, Repr

/-- Where the loading of the module is, `src/MathWorker.cpp:504-526`. -/
inductive BPc where
  /-- `i` threads have been asked for -/
  | creating (i : Nat)
  /-- waiting for all the threads to run -/
  | waitRunning
  /-- waiting for all the threads to be idle -/
  | waitIdle
  /-- `StartWorkerThreads` has returned -/
  | done
  deriving DecidableEq, Repr

/-- The shared state while the module is loaded.  `WorkIndex` and `WorkIndexCompleted` are both 0
all the time: nobody can submit work before the loading is over. -/
structure Boot where
  running : Nat
  awakened : Int
  main : BPc
  threads : List TPc
  deriving DecidableEq, Repr

/-- One step of the loading of the module, with `count` workers wanted and `fails i` telling
whether the creation of the `i`-th fails.

Simplification: a thread reads `WorkIndex` and `WorkIndexCompleted` in one step, since neither
changes. -/
inductive BootStep (count : Nat) (fails : Nat → Bool) : Boot → Boot → Prop where
  /-- `pthread_create` works, `src/MathThreads.cpp:219-232`. -/
  | create (s : Boot) (i : Nat) (h : s.main = .creating i) (hi : i < count)
      (ok : fails i = false) :
      BootStep count fails s { s with main := .creating (i + 1), threads := s.threads ++ [.fresh] }
  /-- `pthread_create` fails: a line is printed, and the loop goes on. -/
  | createFails (s : Boot) (i : Nat) (h : s.main = .creating i) (hi : i < count)
      (bad : fails i = true) :
      BootStep count fails s { s with main := .creating (i + 1) }
  /-- The loop over the threads ends, `src/MathWorker.cpp:507`. -/
  | created (s : Boot) (h : s.main = .creating count) :
      BootStep count fails s { s with main := .waitRunning }
  /-- All the threads run, `src/MathWorker.cpp:517-520`. -/
  | allRun (s : Boot) (h : s.main = .waitRunning) (ok : count ≤ s.running) :
      BootStep count fails s { s with main := .waitIdle }
  /-- No thread is awake, `src/MathWorker.cpp:523-526`. -/
  | allIdle (s : Boot) (h : s.main = .waitIdle) (ok : s.awakened = 0) :
      BootStep count fails s { s with main := .done }
  /-- `core{ pWorkerRing->ThreadsRunning++ }`, `src/MathThreads.cpp:85`. -/
  | number (s : Boot) (k : Nat) (h : s.threads[k]? = some .fresh) :
      BootStep count fails s { s with running := s.running + 1,
                                      threads := s.threads.set k (.numbered s.running) }
  /-- `++ThreadsAwakened`, `src/MathThreads.cpp:100`. -/
  | first (s : Boot) (k c : Nat) (h : s.threads[k]? = some (.numbered c)) :
      BootStep count fails s { s with awakened := s.awakened + 1,
                                      threads := s.threads.set k (.awake c) }
  /-- `workIndex > workIndexCompleted` is false, `src/MathThreads.cpp:110-116`. -/
  | look (s : Boot) (k c : Nat) (h : s.threads[k]? = some (.awake c)) :
      BootStep count fails s { s with threads := s.threads.set k (.noWork c) }
  /-- `--ThreadsAwakened`, `src/MathThreads.cpp:131`. -/
  | sleep (s : Boot) (k c : Nat) (h : s.threads[k]? = some (.noWork c)) :
      BootStep count fails s { s with awakened := s.awakened - 1,
                                      threads := s.threads.set k (.asleep c) }

/-- A thread leaves the wait without having been woken, and is counted again,
`src/MathThreads.cpp:159-172`. -/
inductive BootWake : Boot → Boot → Prop where
  | wake (s : Boot) (k c : Nat) (h : s.threads[k]? = some (.asleep c)) :
      BootWake s { s with awakened := s.awakened + 1, threads := s.threads.set k (.awake c) }

/-- Before the first thread, `src/MathThreads.h:288-318` and `src/MathWorker.h:98-119`. -/
def boot : Boot := { running := 0, awakened := 0, main := .creating 0, threads := [] }

/-- What can be reached under some schedule. -/
inductive BootReach (count : Nat) (fails : Nat → Bool) : Boot → Prop where
  | start : BootReach count fails boot
  | step {s t : Boot} : BootReach count fails s → BootStep count fails s t →
      BootReach count fails t
  | wake {s t : Boot} : BootReach count fails s → BootWake s t → BootReach count fails t

/-- The number a thread has taken. -/
def TPc.core : TPc → Option Nat
  | .fresh => none
  | .numbered c => some c
  | .awake c => some c
  | .noWork c => some c
  | .asleep c => some c

/-- The same thread in the protocol of the operations (`Verif/Work/Model.lean`): one which is not
counted yet is asleep there. -/
def TPc.inPool : TPc → WPc
  | .fresh => .asleep
  | .numbered _ => .asleep
  | .awake _ => .awake
  | .noWork _ => .noWork
  | .asleep _ => .asleep

/-- The state in which the first operation starts. -/
def Boot.pool (s : Boot) : St :=
  { init 0 with awakened := s.awakened, workers := s.threads.map TPc.inPool }

/-! ## A forked child -/

/-- What `fork` leaves to the child when the thread which forks is outside `WorkMain`: the memory
is a copy (`stWorkerRing` is in it, `src/MathThreads.h:285-318`), the other threads do not exist.
Nothing in the source sets the counters back, or starts the threads again. -/
def forked (s : St) : St := { s with workers := [] }

/-- What can happen from a state on. -/
inductive Runs : St → St → Prop where
  | refl (s : St) : Runs s s
  | step {s t u : St} : Runs s t → Step t u → Runs s u

end Riptide.Work
