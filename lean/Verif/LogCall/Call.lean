/-! # Model of the logging of `src/Logger.cpp` and `src/logging`

The calls `EnableLogging` and `DisableLogging`, the threads which log, the thread which hands the records to Python and
the one which wakes it, as a transition system. Simplifications: the lock of the queue and its condition variable are
left out, as the queue by itself is modelled in `Verif/LogQueue` (property C37): a wait ends when its condition holds.
`EnableLogging` is one step, as it holds the lock of the interpreter and the handler starts at its end. The handler
gets that lock whenever it asks for it. Texts and places in the source are numbers, as nothing looks into them. -/
namespace Riptide.LogCall

/-- A record, `src/logging/log_common.h:29-36`: the name of the logger, the text, the level and the time in
nanoseconds since the epoch. -/
structure Rec where
  name : Nat
  text : Nat
  level : Int
  time : Nat
  deriving DecidableEq

/-- What the method `log` of a Python logger is called with, `src/Logger.cpp:109-125`. -/
structure Msg where
  name : Nat
  text : Nat
  level : Int
  stamp : Nat
  deriving DecidableEq

/-- The attribute `level` of a Python logger as `UpdateLogLevel` finds it, `src/Logger.cpp:26-34`: there is none, it is
no `int`, or it is one. -/
inductive Attr
  | missing
  | other
  | int (z : Int)
  deriving DecidableEq

/-- A Python logger, `src/Logger.cpp:18` and `103-107`: its attribute `level` and whether it has a method `log`. -/
structure Sink where
  level : Attr
  hasLog : Bool
  deriving DecidableEq

/-- Where the handler is in `LoggingHandler`, `src/Logger.cpp:65-134`: there is no thread to join; at the test of `active`
(69); at the test of the inner loop with a batch (80); at the test of `active` in `receive`
(`src/logging/logging_service.h:80`); in `pop_front` (`:83`); after the inner loop (90-93); returned, but not joined. -/
inductive Hand
  | none
  | top
  | fill (b : List Rec)
  | recv (b : List Rec)
  | pop (b : List Rec)
  | full (b : List Rec)
  | ended
  deriving DecidableEq

/-- Where a thread is in `logging_service::disable`, `src/logging/logging_service.h:130-154`: none waits for the handler, or one
does, with the timeout which still may expire. There are never two, as the second finds `shutdown_` set. -/
inductive Dis
  | idle
  | joining (timeout : Option Int)
  deriving DecidableEq

/-- The state: the members of `logging_service` (`src/logging/logging_service.h:187-196`), with `wait_` of the queue
(`src/logging/waiting_deque.h:70`) and whether the flusher is active (`src/logging/timer.h:67`); the levels of the loggers
(`src/logging/logger.h:70`); the Python loggers and the callback of `src/Logger.cpp:18-20`, the latter with whether the
function still exists; whether Python is finalizing. `stops`:
how many threads are about to cancel the flusher (`src/logging/logging_service.h:156`). `pending`: records of threads between `should_log` and `push_back`.
`accepted`, `handed`: what the queue took and what Python was called with so far, for the record only. -/
structure St where
  queue : List Rec
  wait : Bool
  shutdown : Bool
  flusher : Bool
  batch : Nat
  interval : Int
  max : Nat
  hand : Hand
  dis : Dis
  stops : Nat
  levels : Nat → Int
  sinks : List (Nat × Sink)
  callback : Option Bool
  finalizing : Bool
  pending : List Rec
  accepted : List Rec
  handed : List Msg

/-- The reply of a call: the step is no call of Python, `None`, or a `ValueError`. -/
inductive Reply
  | silent
  | pyNone
  | valueError
  deriving DecidableEq

/-- The outcome of a step: `terminated`: `std::terminate`; `undefined`: a null pointer or memory which was given back. -/
inductive Out
  | ok (s : St) (r : Reply)
  | terminated
  | undefined

/-- `active`, `src/logging/logging_service.h:90-93`. -/
def St.active (s : St) : Bool := !s.queue.isEmpty || !s.shutdown

/-- The conversion to `int32_t` of `src/Logger.cpp:34`. -/
def toI32 (z : Int) : Int := (z + 2 ^ 31) % 2 ^ 32 - 2 ^ 31

/-- The level which is set for an attribute, `src/Logger.cpp:34-38`: `PyLong_AsLong` gives -1 for what is no `long`. The
error this sets is left out. -/
def levelOf (z : Int) : Option Int :=
  let w := if -(2 ^ 63) ≤ z ∧ z < 2 ^ 63 then toI32 z else -1
  if 0 ≤ w ∧ w ≤ 50 then some w else none

/-- `logger->set_level(level)`, `src/Logger.cpp:37-39` and `src/logging/logger.h:62-65`. -/
def setLevel (lv : Nat → Int) (n : Nat) (v : Int) : Nat → Int := fun m => if m = n then v else lv m

/-- The body of the loop of `UpdateLogLevel`, `src/Logger.cpp:24-40`: `PyLong_Check` reads the type of the attribute, so
a logger without one is undefined. -/
def updateOne (lv : Nat → Int) (e : Nat × Sink) : Option (Nat → Int) :=
  match e.2.level with
  | .missing => none
  | .other => some lv
  | .int z => some ((levelOf z).elim lv (setLevel lv e.1))

/-- `UpdateLogLevel`, `src/Logger.cpp:22-41`; `none`: undefined. -/
def update (sinks : List (Nat × Sink)) (lv : Nat → Int) : Option (Nat → Int) := sinks.foldlM updateOne lv

/-- The arguments for a record, `src/Logger.cpp:109-121`: the format `I` takes the time, 64 bits, as an `unsigned int`. -/
def msgOf (r : Rec) : Msg := ⟨r.name, r.text, r.level, r.time % 2 ^ 32⟩

/-- The Python logger for a name, `src/Logger.cpp:103`; `none`: a null pointer. -/
def sinkOf (sinks : List (Nat × Sink)) (n : Nat) : Option Sink := (sinks.find? (·.1 = n)).map (·.2)

/-- The body of the loop over the batch, `src/Logger.cpp:101-129`; `none`: undefined. A logger without `log` is
passed over. What `log` does and the references to its arguments, which are never given back, are left out. -/
def handOne (sinks : List (Nat × Sink)) (out : List Msg) (r : Rec) : Option (List Msg) :=
  (sinkOf sinks r.name).map fun k => if k.hasLog then out ++ [msgOf r] else out

/-- The loop over the batch, `src/Logger.cpp:101-129`. -/
def handAll (sinks : List (Nat × Sink)) (out : List Msg) (b : List Rec) : Option (List Msg) := b.foldlM (handOne sinks) out

/-- The end of an iteration of the handler, `src/Logger.cpp:90-132`: when Python is finalizing the thread returns with its
batch; otherwise the levels are updated and the batch is handed over. -/
def St.flush (s : St) (b : List Rec) : Out :=
  if s.finalizing then .ok { s with hand := .ended } .silent
  else
    match update s.sinks s.levels, handAll s.sinks s.handed b with
    | some lv, some out => .ok { s with levels := lv, handed := out, hand := .top } .silent
    | _, _ => .undefined

/-- The next step of the handler, `src/Logger.cpp:69-133`, `src/logging/logging_service.h:78-88` and
`src/logging/waiting_deque.h:12-31`; `elapsed`: the milliseconds since the last batch; `none`: it waits or there is none. -/
def St.handle (s : St) (elapsed : Int) : Option Out :=
  match s.hand with
  | .none => none
  | .top => some (.ok { s with hand := if s.active then .fill [] else .ended } .silent)
  | .fill b => some (.ok { s with hand := if b.length < s.batch ∧ elapsed < s.interval then .recv b else .full b } .silent)
  | .recv b => some (.ok { s with hand := if s.active then .pop b else .full b } .silent)
  | .pop b =>
    match s.queue with
    | r :: q => some (.ok { s with queue := q, hand := .fill (b ++ [r]) } .silent)
    | [] => if s.wait then none else some (.ok { s with wait := true, hand := .full b } .silent)
  | .full b => some (s.flush b)
  | .ended => none

/-- An exception in the handler, `src/Logger.cpp:135-142` and `48-63`: the thread calls the callback, unless Python is
finalizing, and returns. The callback is not kept alive, so it may be gone. -/
def St.throw (s : St) : Option Out :=
  match s.hand with
  | .none => none
  | .ended => none
  | _ => if !s.finalizing && s.callback == some false then some .undefined else some (.ok { s with hand := .ended } .silent)

/-- The arguments of `EnableLogging`, `src/Logger.cpp:174-183`: not four of the types of the format `lIIO`, or the interval,
the batch size, the greatest size and whether the callback is a function. -/
inductive Args
  | bad
  | given (interval batch max : Int) (isFun : Bool)

/-- `EnableLogging` after the arguments were taken, `src/Logger.cpp:185-196`, with `logging_service::enable` and
`set_handler`, `src/logging/logging_service.h:110-128` and `174-178`. The format `I` takes 32 bits and does not look at
the others. Assigning to a thread which was not joined is `std::terminate`; this comes last. -/
def St.start (s : St) (interval batch max : Int) (isFun : Bool) : Out :=
  match update s.sinks s.levels with
  | none => .undefined
  | some lv =>
    if s.hand = .none then
      .ok { s with callback := (if isFun then some true else none), shutdown := false, interval := interval, batch := (batch % 2 ^ 32).toNat, max := (max % 2 ^ 32).toNat, flusher := true, levels := lv, hand := .top } .pyNone
    else .terminated

/-- `EnableLogging`, `src/Logger.cpp:166-197`: nothing happens when the service is active. The format `l` refuses what is no
`long`. -/
def St.enable (s : St) (a : Args) : Out :=
  if s.active then .ok s .pyNone
  else
    match a with
    | .bad => .ok s .valueError
    | .given i b m f => if -(2 ^ 63) ≤ i ∧ i < 2 ^ 63 then s.start i b m f else .ok s .valueError

/-- `logging_service::disable` up to the wait for the handler, `src/logging/logging_service.h:130-137`. -/
def St.stop (s : St) (timeout : Option Int) : St :=
  if s.shutdown then s
  else { s with shutdown := true, wait := false, dis := (if s.hand = .none then s.dis else .joining timeout), stops := (if s.hand = .none then s.stops + 1 else s.stops) }

/-- `DisableLogging` up to the wait for the handler, `src/Logger.cpp:211-231`: nothing happens when the service is not active;
-1 means to wait for ever. `none` as the argument: it is no `int`. -/
def St.disable (s : St) (t : Option Int) : Out :=
  if s.active then
    match t with
    | none => .ok s .valueError
    | some t => if -(2 ^ 63) ≤ t ∧ t < 2 ^ 63 then .ok (s.stop (if t = -1 then none else some t)) .pyNone else .ok s .valueError
  else .ok s .pyNone

/-- The handler has returned and is joined, `src/logging/logging_service.h:140-146`. -/
def St.join (s : St) : Option Out :=
  match s.dis, s.hand with
  | .joining _, .ended => some (.ok { s with hand := .none, dis := .idle, stops := s.stops + 1 } .silent)
  | _, _ => none

/-- The timeout expires, `src/logging/logging_service.h:147-152`: all records are dropped; the destructor of the future waits for
the handler all the same. -/
def St.expire (s : St) : Option Out :=
  match s.dis with
  | .joining (some _) => some (.ok { s with queue := [], wait := false, dis := .joining none } .silent)
  | _ => none

/-- The flusher is cancelled and `DisableLogging` returns, `src/logging/logging_service.h:156` and `src/logging/timer.h:51-62`. -/
def St.cancel (s : St) : Option Out :=
  if s.stops = 0 then none else some (.ok { s with flusher := false, stops := s.stops - 1 } .silent)

/-- `should_log`, `src/logging/logger.h:57-60`. -/
def St.wants (s : St) (r : Rec) : Bool := !s.shutdown && decide (s.levels r.name ≤ r.level)

/-- The call of a logger up to `push_back`, `src/logging/logger.h:18-25` and `src/logging/logging_service.h:59-70`. That
the text cannot be formatted is left out. -/
def St.log (s : St) (r : Rec) : St := if s.wants r then { s with pending := s.pending ++ [r] } else s

/-- `push_back`, `src/logging/waiting_deque.h:33-44`, of the `i`-th of the threads which are about to. -/
def St.push (s : St) (i : Nat) : Option Out :=
  match s.pending[i]? with
  | none => none
  | some r =>
    if s.queue.length ≥ s.max then some (.ok { s with pending := s.pending.eraseIdx i } .silent)
    else some (.ok { s with pending := s.pending.eraseIdx i, queue := s.queue ++ [r], accepted := s.accepted ++ [r] } .silent)

/-- The steps of all the threads. `python`: a program changes the Python loggers; `gone`: the function given as
callback ceases to exist; `finalize`: Python begins to finalize. -/
inductive Ev
  | log (r : Rec)
  | push (i : Nat)
  | tick
  | handle (elapsed : Int)
  | throw
  | enable (a : Args)
  | disable (t : Option Int)
  | join
  | expire
  | cancel
  | python (k : List (Nat × Sink))
  | gone
  | finalize

/-- A step; `none`: it is not possible in this state. The tick of the flusher: `src/logging/logging_service.h:122-127`. -/
def St.step (s : St) : Ev → Option Out
  | .log r => some (.ok (s.log r) .silent)
  | .push i => s.push i
  | .tick => if s.flusher then some (.ok { s with wait := false } .silent) else none
  | .handle e => s.handle e
  | .throw => s.throw
  | .enable a => some (s.enable a)
  | .disable t => some (s.disable t)
  | .join => s.join
  | .expire => s.expire
  | .cancel => s.cancel
  | .python k => some (.ok { s with sinks := k } .silent)
  | .gone => some (.ok { s with callback := s.callback.map fun _ => false } .silent)
  | .finalize => some (.ok { s with finalizing := true } .silent)

/-- The steps after an outcome. -/
def runOn (k : St → Option Out) : Out → Option Out
  | .ok s _ => k s
  | .terminated => some .terminated
  | .undefined => some .undefined

/-- A history; `none`: a step is not possible. After the end of the program or undefined behaviour the outcome stays. -/
def St.run (s : St) : List Ev → Option Out
  | [] => some (.ok s .silent)
  | e :: es => (s.step e).bind (runOn fun s => s.run es)

/-- After `SetupLogging`, `src/Logger.cpp:146-159`, with the initial values of the members. The sizes and the interval are not
initialised by the code; `enable` sets them before they are used. -/
def St.init (sinks : List (Nat × Sink)) : St := ⟨[], true, true, false, 0, 0, 0, .none, .idle, 0, fun _ => 0, sinks, none, false, [], [], []⟩

/-- The name of the Python logger for a logger, `src/Logger.cpp:153` and `205`. -/
def pyName (n : List Char) : List Char := "riptable.riptide_cpp".toList ++ (if n.isEmpty then [] else '.' :: n)

/-- `GetRiptideLoggers`, `src/Logger.cpp:199-209`. -/
def loggers (names : List (List Char)) : List (List Char) := names.map pyName

end Riptide.LogCall
