import Verif.LogCall.CallEnds
/-! # Where logging goes wrong -/
namespace Riptide.LogCall

/-- Two good Python loggers at level 20. -/
def exSinks : List (Nat × Sink) := [(1, ⟨.int 20, true⟩), (2, ⟨.int 20, true⟩)]

/-- A record at level 20 of logger 1, logged in November 2026. -/
def exRec : Rec := ⟨1, 7, 20, 1795000000123456789⟩

/-- Another one of logger 2. -/
def exRec2 : Rec := ⟨2, 8, 30, 1795000000123456999⟩

/-! ## A history in which all is well -/

/-- Logging is enabled, two records are logged, they are handed over, logging is disabled. -/
def exWell : List Ev :=
  [.enable (.given 1000 50 1000 true), .log exRec, .push 0, .log exRec2, .push 0, .handle 0, .handle 0, .handle 0, .handle 0, .handle 0, .handle 0,
    .handle 0, .handle 0]

/-- The rest of it, after `DisableLogging`. -/
def exRest : List Ev := [.handle 0, .handle 0, .handle 0, .join, .cancel]

example : GoodSinks (fun n => n = 1 ∨ n = 2) exSinks := by
  refine ⟨?_, by simp [exSinks]⟩
  rintro n (rfl | rfl)
  · exact ⟨_, by simp [exSinks]; rfl⟩
  · exact ⟨_, by simp [exSinks]; rfl⟩

example : (∀ e ∈ exWell, e.calm (fun n => n = 1 ∨ n = 2)) ∧ ∀ e ∈ exRest, e.calm (fun n => n = 1 ∨ n = 2) ∧ e.noStart := by
  simp [exWell, exRest, Ev.calm, Ev.noStart, exRec, exRec2]

example : ∃ s, (St.init exSinks).run exWell = some (.ok s .silent) ∧ s.shutdown = false ∧ s.pending = [] ∧ 0 < s.batch ∧
    s.accepted = [exRec, exRec2] ∧ ∃ s', s.run (.disable (some (-1)) :: exRest) = some (.ok s' .silent) ∧ s'.dis = .idle ∧
      s'.handed = [⟨1, 7, 20, 1795000000123456789 % 2 ^ 32⟩, ⟨2, 8, 30, 1795000000123456999 % 2 ^ 32⟩] :=
  ⟨_, rfl, rfl, rfl, by decide, rfl, _, rfl, rfl, rfl⟩

/-! ## Times -/

/-- The time Python gets is the time of the record only for the first 4.3 seconds of 1970. -/
theorem stamp_partial (r : Rec) : Faithful r (msgOf r) ↔ r.time < 2 ^ 32 := by
  constructor
  · intro h
    have := h.time
    simp only [msgOf] at this
    rw [← this]
    exact Nat.mod_lt _ (by decide)
  · intro h
    exact ⟨rfl, rfl, rfl, Nat.mod_eq_of_lt h⟩

/-- So the records of a history in which all is well have other times than they were logged at. -/
theorem stamp_is_wrong : ∃ s', (St.init exSinks).run (exWell ++ .disable (some (-1)) :: exRest) = some (.ok s' .silent) ∧
    s'.accepted = [exRec, exRec2] ∧ s'.handed.map (·.stamp) ≠ s'.accepted.map (·.time) :=
  ⟨_, rfl, rfl, fun h => absurd (congrArg List.head? h) (by decide)⟩

/-! ## Levels -/

/-- A level above 50, such as one to silence a logger, is not taken: the logger keeps its level and goes on. -/
theorem high_level_ignored (lv : Nat → Int) (n : Nat) (b : Bool) (z : Int) (h : 50 < z ∧ z < 2 ^ 31) :
    update [(n, ⟨.int z, b⟩)] lv = some lv := by
  have hv : levelOf z = none := by
    have hz : toI32 z = z := by
      unfold toI32
      omega
    unfold levelOf
    simp only
    rw [if_pos (show -(2 ^ 63) ≤ z ∧ z < 2 ^ 63 by omega), hz, if_neg (by omega)]
  simp [update, List.foldlM_cons, updateOne, hv]

/-- A silenced logger still logs: logger 1 is set to level 60 and a record of level 20 is handed to Python. -/
theorem silenced_logs : ∃ s, (St.init [(1, ⟨.int 60, true⟩)]).run
    [.enable (.given 1000 1 1000 true), .log exRec, .push 0, .handle 0, .handle 0, .handle 0, .handle 0, .handle 0, .handle 0] =
      some (.ok s .silent) ∧ s.handed.length = 1 :=
  ⟨_, rfl, rfl⟩

/-- A level of more than 32 bits is cut off: 2^32 + 10 becomes 10. -/
theorem level_wraps : levelOf (2 ^ 32 + 10) = some 10 ∧ levelOf (-(2 ^ 32) + 50) = some 50 := by decide

/-- A Python logger without a level is undefined, when logging is enabled and when a batch is handed over. -/
theorem no_level_undefined (s : St) (hs : s.active = false) (n : Nat) (b : Bool) (hk : s.sinks = [(n, ⟨.missing, b⟩)]) :
    s.step (.enable (.given 1000 50 1000 true)) = some .undefined := by
  simp [St.step, St.enable, hs, St.start, hk, update, List.foldlM_cons, updateOne]

/-- So is a logger which had no Python logger when the module was loaded. -/
theorem unknown_logger_undefined : (St.init [(1, ⟨.int 20, true⟩)]).run
    [.enable (.given 1000 1 1000 true), .log exRec2, .push 0, .handle 0, .handle 0, .handle 0, .handle 0, .handle 0, .handle 0] =
      some .undefined := rfl

/-- A new level has no effect before the next batch: a logger set to 50 logs at level 20. -/
theorem level_is_late : ∃ s, (St.init exSinks).run
    [.enable (.given 1000 50 1000 true), .python [(1, ⟨.int 50, true⟩), (2, ⟨.int 50, true⟩)], .log exRec, .push 0] = some (.ok s .silent) ∧
      s.accepted = [exRec] :=
  ⟨_, rfl, rfl⟩

/-! ## Batches which are never filled -/

/-- The handler turns round without looking at the queue. -/
structure Idle (s : St) : Prop where
  some : s.queue ≠ []
  hand : s.hand = .top ∨ s.hand = .fill [] ∨ s.hand = .full []
  never : s.batch = 0 ∨ s.interval ≤ 0
  off : s.shutdown = true
  handed : s.finalizing = false

/-- No exception, no end of the interpreter, no expired timeout, and clocks which do not go back. -/
def Ev.patient : Ev → Prop
  | .throw => False
  | .expire => False
  | .finalize => False
  | .handle e => 0 ≤ e
  | _ => True

/-- With a batch size of 0 or an interval which is not positive, `DisableLogging` without a timeout never returns once something is in the
queue: whatever happens the handler goes on, the queue is not emptied and Python gets nothing. -/
theorem never_returns (es : List Ev) (he : ∀ e ∈ es, e.patient) (s s' : St) (q : Reply) (hs : Idle s) (hd : s.dis = .joining none)
    (h : s.run es = some (.ok s' q)) : Idle s' ∧ s'.dis = .joining none ∧ s'.handed = s.handed := by
  refine run_keeps (P := fun x => Idle x ∧ x.dis = .joining none ∧ x.handed = s.handed) (Q := Ev.patient) ?_ es s s' q he ⟨hs, hd, rfl⟩ h
  rintro x x' e r hq ⟨⟨h1, h2, h3, h4, h5⟩, h6, h7⟩ hstep
  have ha : x.active = true := by
    cases hx : x.queue with
    | nil => exact absurd hx h1
    | cons a b => simp [St.active, hx]
  cases e with
  | log y =>
    simp only [St.step, Option.some.injEq, Out.ok.injEq] at hstep
    obtain ⟨rfl, -⟩ := hstep
    unfold St.log
    split <;> exact ⟨⟨h1, h2, h3, h4, h5⟩, h6, h7⟩
  | push i =>
    obtain ⟨y, hy, ⟨hm, rfl⟩ | ⟨hm, rfl⟩⟩ := push_cases hstep
    · exact ⟨⟨h1, h2, h3, h4, h5⟩, h6, h7⟩
    · exact ⟨⟨by simp, h2, h3, h4, h5⟩, h6, h7⟩
  | tick => obtain ⟨_, rfl⟩ := tick_cases hstep; exact ⟨⟨h1, h2, h3, h4, h5⟩, h6, h7⟩
  | handle el =>
    have hel : 0 ≤ el := hq
    rcases handle_cases hstep with ⟨hh, ha', rfl⟩ | ⟨hh, ha', rfl⟩ | ⟨b, hh, hc, rfl⟩ | ⟨b, hh, hc, rfl⟩ | ⟨b, hh, ha', rfl⟩ |
      ⟨b, hh, ha', rfl⟩ | ⟨b, y, q, hh, hq, rfl⟩ | ⟨b, hh, hq, hw, rfl⟩ | ⟨b, hh, hf, rfl⟩ | ⟨b, lv, out, hh, hf, hu, ho, rfl⟩
    · exact ⟨⟨h1, .inr (.inl rfl), h3, h4, h5⟩, h6, h7⟩
    · rw [ha] at ha'
      cases ha'
    · have : b = [] := by rcases h2 with h2 | h2 | h2 <;> rw [hh] at h2 <;> simp_all
      subst this
      simp only [List.length_nil] at hc
      omega
    · have : b = [] := by rcases h2 with h2 | h2 | h2 <;> rw [hh] at h2 <;> simp_all
      subst this
      exact ⟨⟨h1, .inr (.inr rfl), h3, h4, h5⟩, h6, h7⟩
    · rcases h2 with h2 | h2 | h2 <;> rw [hh] at h2 <;> cases h2
    · rcases h2 with h2 | h2 | h2 <;> rw [hh] at h2 <;> cases h2
    · rcases h2 with h2 | h2 | h2 <;> rw [hh] at h2 <;> cases h2
    · rcases h2 with h2 | h2 | h2 <;> rw [hh] at h2 <;> cases h2
    · rw [h5] at hf
      cases hf
    · have : b = [] := by rcases h2 with h2 | h2 | h2 <;> rw [hh] at h2 <;> simp_all
      subst this
      simp only [handAll, List.foldlM_nil] at ho
      cases ho
      exact ⟨⟨h1, .inl rfl, h3, h4, h5⟩, h6, h7⟩
  | throw => exact hq.elim
  | enable a =>
    simp only [St.step, Option.some.injEq] at hstep
    rcases enable_cases hstep with rfl | ⟨ha', _, _, _, _, _, _, _, _, rfl⟩
    · exact ⟨⟨h1, h2, h3, h4, h5⟩, h6, h7⟩
    · rw [ha] at ha'
      cases ha'
  | disable t =>
    simp only [St.step, Option.some.injEq] at hstep
    rcases disable_cases hstep with rfl | ⟨u, rfl⟩
    · exact ⟨⟨h1, h2, h3, h4, h5⟩, h6, h7⟩
    · rw [show x.stop u = x from if_pos h4]
      exact ⟨⟨h1, h2, h3, h4, h5⟩, h6, h7⟩
  | join =>
    obtain ⟨hh, _, rfl⟩ := join_cases hstep
    rcases h2 with h2 | h2 | h2 <;> rw [hh] at h2 <;> cases h2
  | expire => exact hq.elim
  | cancel => obtain ⟨_, rfl⟩ := cancel_cases hstep; exact ⟨⟨h1, h2, h3, h4, h5⟩, h6, h7⟩
  | python _ => simp only [St.step, Option.some.injEq, Out.ok.injEq] at hstep; obtain ⟨rfl, -⟩ := hstep; exact ⟨⟨h1, h2, h3, h4, h5⟩, h6, h7⟩
  | gone => simp only [St.step, Option.some.injEq, Out.ok.injEq] at hstep; obtain ⟨rfl, -⟩ := hstep; exact ⟨⟨h1, h2, h3, h4, h5⟩, h6, h7⟩
  | finalize => exact hq.elim

/-- Such states come about: with a batch size of 2^32, of which the call takes 0, and one record. -/
theorem batch_wraps_and_hangs : ∃ s, (St.init exSinks).run
    [.enable (.given 1000 (2 ^ 32) 1000 true), .log exRec, .push 0, .disable (some (-1))] = some (.ok s .silent) ∧ Idle s ∧
      s.dis = .joining none :=
  ⟨_, rfl, ⟨List.cons_ne_nil exRec [], .inl rfl, .inl rfl, rfl, rfl⟩, rfl⟩

/-- And with an interval of 0, which the call takes. -/
theorem no_interval_hangs : ∃ s, (St.init exSinks).run
    [.enable (.given 0 50 1000 true), .log exRec, .push 0, .disable (some (-1))] = some (.ok s .silent) ∧ Idle s ∧ s.dis = .joining none :=
  ⟨_, rfl, ⟨List.cons_ne_nil exRec [], .inl rfl, .inr (by decide), rfl, rfl⟩, rfl⟩

/-! ## A record which comes too late -/

/-- Logging is off, nobody hands over, and something is in the queue. -/
structure Stuck (s : St) : Prop where
  off : s.shutdown = true
  hand : s.hand = .none
  some : s.queue ≠ []
  dis : s.dis = .idle

/-- Then logging cannot be enabled any more: whatever is called, `EnableLogging` and `DisableLogging` return without doing anything,
nothing is ever handed over, and a thread which logs is not heard. -/
theorem stuck_for_good (es : List Ev) (s s' : St) (q : Reply) (hs : Stuck s) (h : s.run es = some (.ok s' q)) :
    Stuck s' ∧ s'.handed = s.handed := by
  refine run_keeps (P := fun x => Stuck x ∧ x.handed = s.handed) (Q := fun _ => True) ?_ es s s' q (fun _ _ => trivial) ⟨hs, rfl⟩ h
  rintro x x' e r - ⟨⟨h1, h2, h3, h4⟩, h5⟩ hstep
  have ha : x.active = true := by
    cases hx : x.queue with
    | nil => exact absurd hx h3
    | cons a b => simp [St.active, hx]
  cases e with
  | log y =>
    simp only [St.step, Option.some.injEq, Out.ok.injEq] at hstep
    obtain ⟨rfl, -⟩ := hstep
    unfold St.log
    split <;> exact ⟨⟨h1, h2, h3, h4⟩, h5⟩
  | push i =>
    obtain ⟨y, hy, ⟨hm, rfl⟩ | ⟨hm, rfl⟩⟩ := push_cases hstep
    · exact ⟨⟨h1, h2, h3, h4⟩, h5⟩
    · exact ⟨⟨h1, h2, by simp, h4⟩, h5⟩
  | tick => obtain ⟨_, rfl⟩ := tick_cases hstep; exact ⟨⟨h1, h2, h3, h4⟩, h5⟩
  | handle el => simp [St.step, St.handle, h2] at hstep
  | throw => simp [St.step, St.throw, h2] at hstep
  | enable a =>
    simp only [St.step, Option.some.injEq] at hstep
    rcases enable_cases hstep with rfl | ⟨ha', _, _, _, _, _, _, _, _, rfl⟩
    · exact ⟨⟨h1, h2, h3, h4⟩, h5⟩
    · rw [ha] at ha'
      cases ha'
  | disable t =>
    simp only [St.step, Option.some.injEq] at hstep
    rcases disable_cases hstep with rfl | ⟨u, rfl⟩
    · exact ⟨⟨h1, h2, h3, h4⟩, h5⟩
    · rw [show x.stop u = x from if_pos h1]
      exact ⟨⟨h1, h2, h3, h4⟩, h5⟩
  | join => simp [St.step, St.join, h4] at hstep
  | expire => simp [St.step, St.expire, h4] at hstep
  | cancel => obtain ⟨_, rfl⟩ := cancel_cases hstep; exact ⟨⟨h1, h2, h3, h4⟩, h5⟩
  | python _ => simp only [St.step, Option.some.injEq, Out.ok.injEq] at hstep; obtain ⟨rfl, -⟩ := hstep; exact ⟨⟨h1, h2, h3, h4⟩, h5⟩
  | gone => simp only [St.step, Option.some.injEq, Out.ok.injEq] at hstep; obtain ⟨rfl, -⟩ := hstep; exact ⟨⟨h1, h2, h3, h4⟩, h5⟩
  | finalize => simp only [St.step, Option.some.injEq, Out.ok.injEq] at hstep; obtain ⟨rfl, -⟩ := hstep; exact ⟨⟨h1, h2, h3, h4⟩, h5⟩

/-- `EnableLogging` returns `None` in such a state. -/
theorem stuck_enable (s : St) (hs : Stuck s) (a : Args) : s.step (.enable a) = some (.ok s .pyNone) := by
  have ha : s.active = true := by
    cases hx : s.queue with
    | nil => exact absurd hx hs.some
    | cons a b => simp [St.active, hx]
  simp [St.step, St.enable, ha]

/-- It takes one thread which has tested the level when logging is disabled and pushes after the handler has returned. -/
theorem late_record_sticks : ∃ s, (St.init exSinks).run
    [.enable (.given 1000 50 1000 true), .log exRec, .disable (some (-1)), .handle 0, .push 0, .join, .cancel] = some (.ok s .silent) ∧ Stuck s :=
  ⟨_, rfl, ⟨rfl, rfl, List.cons_ne_nil exRec [], rfl⟩⟩

/-- Or an exception in the handler: the records after it stay where they are, and disabling leaves them there. -/
theorem exception_sticks : ∃ s, (St.init exSinks).run
    [.enable (.given 1000 50 1000 true), .handle 0, .throw, .log exRec, .push 0, .disable (some (-1)), .join, .cancel] = some (.ok s .silent) ∧
      Stuck s :=
  ⟨_, rfl, ⟨rfl, rfl, List.cons_ne_nil exRec [], rfl⟩⟩

/-! ## Exceptions -/

/-- The callback is called although the function is gone: nothing keeps it alive. -/
theorem callback_gone : (St.init exSinks).run [.enable (.given 1000 50 1000 true), .gone, .handle 0, .throw] = some .undefined := rfl

/-- After an exception the service is still enabled, takes records and hands none over. -/
theorem exception_unnoticed : ∃ s, (St.init exSinks).run
    [.enable (.given 1000 50 1000 false), .handle 0, .throw, .log exRec, .push 0, .enable (.given 1000 50 1000 false)] = some (.ok s .silent) ∧
      s.shutdown = false ∧ s.hand = .ended ∧ s.queue = [exRec] ∧ ∀ e, s.step (.handle e) = none :=
  ⟨_, rfl, rfl, rfl, rfl, fun _ => rfl⟩

/-- An exception loses the batch: a record which the queue took is neither handed over nor anywhere else. -/
theorem exception_loses : ∃ s, (St.init exSinks).run
    [.enable (.given 1000 50 1000 false), .log exRec, .push 0, .handle 0, .handle 0, .handle 0, .handle 0, .throw] = some (.ok s .silent) ∧
      s.accepted = [exRec] ∧ s.handed = [] ∧ s.hand.batch ++ s.queue = [] :=
  ⟨_, rfl, rfl, rfl, rfl⟩

/-! ## Two threads -/

/-- To enable logging while another thread waits for the handler ends the program, once the queue is empty. -/
theorem enable_while_disabling (k : List (Nat × Sink)) (es : List Ev) (s : St) (q : Reply)
    (h : (St.init k).run es = some (.ok s q)) (t : Option Int) (hd : s.dis = .joining t) (hq : s.queue = [])
    (hk : ∀ e ∈ s.sinks, e.2.level ≠ .missing) (i b m : Int) (f : Bool) (hb : -(2 ^ 63) ≤ i ∧ i < 2 ^ 63) :
    s.step (.enable (.given i b m f)) = some .terminated := by
  obtain ⟨h1, h2⟩ := (run_inv (Inv.init k) h).joining t hd
  obtain ⟨lv, hlv⟩ := update_good s.levels hk
  have ha : s.active = false := by simp [St.active, h1, hq]
  simp only [St.step, St.enable, ha, if_pos hb, St.start, hlv, if_neg h2]
  rfl

/-- It happens from the start: enable, disable, and enable in another thread. -/
theorem enable_terminates : (St.init exSinks).run
    [.enable (.given 1000 50 1000 true), .disable (some (-1)), .enable (.given 1000 50 1000 true)] = some .terminated := rfl

/-- When logging is enabled between the join and the end of `DisableLogging` the flusher of the new logging is cancelled. -/
theorem flusher_cancelled : ∃ s, (St.init exSinks).run
    [.enable (.given 1000 50 1000 true), .disable (some (-1)), .handle 0, .join, .enable (.given 1000 50 1000 true), .cancel] =
      some (.ok s .silent) ∧ s.shutdown = false ∧ s.flusher = false ∧ s.hand = .top :=
  ⟨_, rfl, rfl, rfl, rfl⟩

/-- No logging and no call to start or stop it. -/
def Ev.still : Ev → Prop
  | .log _ => False
  | .push _ => False
  | .enable _ => False
  | .disable _ => False
  | .throw => False
  | _ => True

/-- Without a flusher a batch which is not full is kept for as long as nothing further is logged. -/
theorem batch_withheld (es : List Ev) (he : ∀ e ∈ es, e.still) (s s' : St) (q : Reply) (b : List Rec) (h1 : s.hand = .pop b)
    (h2 : s.queue = []) (h3 : s.wait = true) (h4 : s.flusher = false) (h5 : s.dis = .idle) (h : s.run es = some (.ok s' q)) :
    s'.hand = .pop b ∧ s'.handed = s.handed := by
  have := run_keeps (P := fun x => x.hand = .pop b ∧ x.queue = [] ∧ x.wait = true ∧ x.flusher = false ∧ x.dis = .idle ∧ x.handed = s.handed)
    (Q := Ev.still) ?_ es s s' q he ⟨h1, h2, h3, h4, h5, rfl⟩ h
  · exact ⟨this.1, this.2.2.2.2.2⟩
  · rintro x x' e r hq ⟨h1, h2, h3, h4, h5, h6⟩ hstep
    cases e with
    | log y => exact hq.elim
    | push i => exact hq.elim
    | tick => simp [St.step, h4] at hstep
    | handle el => simp [St.step, St.handle, h1, h2, h3] at hstep
    | throw => exact hq.elim
    | enable a => exact hq.elim
    | disable t => exact hq.elim
    | join => simp [St.step, St.join, h5] at hstep
    | expire => simp [St.step, St.expire, h5] at hstep
    | cancel => obtain ⟨_, rfl⟩ := cancel_cases hstep; exact ⟨h1, h2, h3, rfl, h5, h6⟩
    | python _ => simp only [St.step, Option.some.injEq, Out.ok.injEq] at hstep; obtain ⟨rfl, -⟩ := hstep; exact ⟨h1, h2, h3, h4, h5, h6⟩
    | gone => simp only [St.step, Option.some.injEq, Out.ok.injEq] at hstep; obtain ⟨rfl, -⟩ := hstep; exact ⟨h1, h2, h3, h4, h5, h6⟩
    | finalize => simp only [St.step, Option.some.injEq, Out.ok.injEq] at hstep; obtain ⟨rfl, -⟩ := hstep; exact ⟨h1, h2, h3, h4, h5, h6⟩

example : ∃ s, (St.init exSinks).run
    [.enable (.given 1000 50 1000 true), .handle 0, .handle 0, .handle 0, .tick, .disable (some (-1)), .handle 0, .handle 0, .handle 0, .join,
      .enable (.given 1000 50 1000 true), .cancel, .log exRec, .push 0, .handle 0, .handle 0, .handle 0, .handle 0, .handle 0, .handle 0] =
      some (.ok s .silent) ∧ s.hand = .pop [exRec] ∧ s.queue = [] ∧ s.wait = true ∧ s.flusher = false ∧ s.dis = .idle :=
  ⟨_, rfl, rfl, rfl, rfl, rfl, rfl⟩

/-! ## Timeouts and arguments -/

/-- A timeout which expires drops what is in the queue. -/
theorem timeout_drops : ∃ s, (St.init exSinks).run
    [.enable (.given 1000 50 1000 true), .log exRec, .push 0, .disable (some 0), .expire, .handle 0, .join, .cancel] = some (.ok s .silent) ∧
      s.accepted = [exRec] ∧ s.handed = [] ∧ s.queue = [] ∧ s.stops = 0 :=
  ⟨_, rfl, rfl, rfl, rfl, rfl⟩

/-- The end of the interpreter loses the batch. -/
theorem finalizing_loses : ∃ s, (St.init exSinks).run
    [.enable (.given 1000 50 1000 true), .log exRec, .push 0, .handle 0, .handle 0, .handle 0, .handle 0, .handle 1000, .finalize, .handle 0] =
      some (.ok s .silent) ∧ s.accepted = [exRec] ∧ s.handed = [] ∧ s.hand.batch ++ s.queue = [] :=
  ⟨_, rfl, rfl, rfl, rfl⟩

/-- `EnableLogging` of an active service takes any arguments, returns `None` and changes nothing. -/
theorem active_takes_anything (s : St) (h : s.shutdown = false) (a : Args) : s.step (.enable a) = some (.ok s .pyNone) := by
  simp [St.step, St.enable, St.active, h]

/-- And so does `DisableLogging` of a service which is not active. -/
theorem inactive_takes_anything (s : St) (h : s.shutdown = true) (hq : s.queue = []) (t : Option Int) :
    s.step (.disable t) = some (.ok s .pyNone) := by
  simp [St.step, St.disable, St.active, h, hq]

/-- A greatest size which is a multiple of 2^32 is taken for 0: everything is dropped. -/
theorem size_wraps : ∃ s, (St.init exSinks).run
    [.enable (.given 1000 50 (2 ^ 32) true), .log exRec, .push 0] = some (.ok s .silent) ∧ s.queue = [] ∧ s.pending = [] ∧ s.accepted = [] :=
  ⟨_, rfl, rfl, rfl, rfl⟩

end Riptide.LogCall
