import Verif.Work.Lemmas
import Verif.Work.Spec
/-! # C01–C03: the worker pool runs every piece of work exactly once and joins its workers -/
namespace Riptide.Work

theorem eachOnce_of_perm {n : Nat} {l : List Nat} (h : l.Perm (List.range n)) : EachOnce n l := by
  intro r
  rw [h.count_eq, List.Nodup.count List.nodup_range]
  simp

/-! ## C01 -/

/-- **C01** (row form). Whatever the array length, the number of workers, the schedule and whether
threading is on, an uninterrupted chunked operation calls its callback on every row exactly
once and on no other row. -/
theorem chunk_work_each_row_once {workers len : Nat} {noThreading : Bool} {rows : List Nat}
    (h : ChunkWork workers len noThreading rows) : EachOnce len rows := by
  apply eachOnce_of_perm
  cases h with
  | direct _ => rw [List.range_eq_range']
  | pool calls _ h2 =>
    obtain ⟨s, t, hr, hm, hi, hl, st, ht, rfl⟩ := h2
    have inv := hr.inv
    have hp : t.finished.Perm (List.range (blockLastGeneric len chunk)) := by
      have := inv.finished_perm (inv.done hm hi)
      cases st <;> simp_all
    rw [← blocks_cover len]
    exact hp.flatMap_right _

theorem CountedWork.perm {workers items : Nat} {noThreading : Bool} {calls : List Nat}
    (h : CountedWork workers items noThreading calls) : calls.Perm (List.range items) := by
  cases h with
  | direct _ => exact List.Perm.refl _
  | pool _ _ h2 =>
    obtain ⟨s, t, hr, hm, hi, hl, st, ht, rfl⟩ := h2
    have inv := hr.inv
    have := inv.finished_perm (inv.done hm hi)
    cases st <;> simp_all

/-- **C01** (item form). An uninterrupted counted operation runs every item exactly once. -/
theorem counted_work_each_item_once {workers items : Nat} {noThreading : Bool} {calls : List Nat}
    (h : CountedWork workers items noThreading calls) : EachOnce items calls := by
  exact eachOnce_of_perm (CountedWork.perm h)

theorem PoolRun.perm {workers last : Nat} {calls : List Nat} (h : PoolRun workers last calls) :
    calls.Perm (List.range last) := by
  obtain ⟨s, t, hr, hm, hi, hl, st, ht, rfl⟩ := h
  have inv := hr.inv
  have := inv.finished_perm (inv.done hm hi)
  cases st <;> simp_all

theorem ChunkSched.cases {workers len : Nat} {noThreading : Bool} {o : Option (List Nat)}
    (h : ChunkSched workers len noThreading o) :
    (o = none ∧ (len < big ∨ noThreading = true)) ∨
    ∃ calls, o = some calls ∧ ¬ (len < big ∨ noThreading = true) ∧
      calls.Perm (List.range (blockLastGeneric len chunk)) := by
  cases h with
  | direct h => exact .inl ⟨rfl, h⟩
  | pool calls h1 h2 => exact .inr ⟨calls, rfl, h1, h2.perm⟩

/-- **C01** (every moment, interrupted or not). At any moment of any execution no item has been
started twice, and no item outside the operation has been started. -/
theorem no_item_started_twice {workers : Nat} {s : St} (h : Reachable workers s) :
    (s.finished ++ s.inProgress).Nodup ∧ ∀ b ∈ s.finished ++ s.inProgress, b < s.blockLast :=
  ⟨h.inv.nodup, fun b hb => (h.inv.bound b hb).2⟩

/-- The last-block formula is tied to the fixed chunk: were the generic mode called with another
block size (no caller does), the last block could reach past the end of the array. -/
theorem other_block_size_overruns :
    ∃ len bs b, 0 < bs ∧ b < blockLastGeneric len bs ∧ len ∈ blockRows len bs b :=
  ⟨30000, 8192, 3, by decide, by decide, by
    simp only [blockRows, List.mem_range'_1]; decide⟩

/-! ## C02 -/

/-- **C02**. Whenever the submitting thread is outside the parallel section (before the first
call, or after any call returned, normally or interrupted), no callback is running, no worker is
inside the work loop or committed to entering it. -/
theorem no_worker_touches_item_outside_operation {workers : Nat} {s : St}
    (h : Reachable workers s) (hm : s.main = .idle) :
    s.inProgress = [] ∧
      ∀ w ∈ s.workers, w ≠ .ticket ∧ w ≠ .claim ∧ ∀ l d, w ≠ .inWork l d := by
  refine ⟨h.inv.idle_inProgress hm, fun w hw => ?_⟩
  have := h.inv.hold hm w hw
  cases w <;> simp_all

/-- **C02**. After return, no step other than the submission of a new operation runs a callback of
the old operation: the log of finished work does not change any more. -/
theorem no_late_callback {workers : Nat} {s t : St} (h : Reachable workers s)
    (hm : s.main = .idle) (st : Step s t) (ht : t.main = .idle) :
    t.finished = s.finished ∧ t.inProgress = [] := by
  refine ⟨?_, (Reachable.step h st).inv.idle_inProgress ht⟩
  have hold := h.inv.hold hm
  rcases st with st | st
  · cases st <;> simp_all
  · cases st <;> simp_all
    rename_i hi
    have := hold _ (List.mem_of_getElem? hi)
    simp at this

/-- Steps of the threads only, any number of them. -/
inductive ThreadSteps : St → St → Prop where
  | refl (s : St) : ThreadSteps s s
  | head {s t u : St} : ThreadStep s t → ThreadSteps t u → ThreadSteps s u

/-- **C44** (progress). A parallel operation is never stuck: while the submitting thread is inside
it, some thread can always take a step. -/
theorem operation_never_stuck {workers : Nat} {s : St} (h : Reachable workers s)
    (hm : s.main ≠ .idle) : ∃ t, ThreadStep s t := h.inv.progress hm

/-- **C44** (termination). The threads cannot run forever without an external event (new
operation, interrupt, or a worker being woken): every sequence of thread steps is finite. -/
theorem thread_steps_terminate : WellFounded (fun t s : St => ThreadStep s t) :=
  Subrelation.wf (fun h => ThreadStep.measure_lt h) (measure St.measure).wf

/-- **C44**. Hence from any reachable state the operation runs to its return. -/
theorem operation_returns {workers : Nat} {s : St} (h : Reachable workers s) :
    ∃ t, ThreadSteps s t ∧ t.main = .idle := by
  induction s using thread_steps_terminate.induction with
  | _ s ih =>
    by_cases hm : s.main = .idle
    · exact ⟨s, .refl s, hm⟩
    · obtain ⟨t, ht⟩ := operation_never_stuck h hm
      obtain ⟨u, hu, hi⟩ := ih t ht (h.step (.inr ht))
      exact ⟨u, .head ht hu, hi⟩

/-! ## C03 -/

theorem segLoop_tiles (d k low rem : Nat) (h : rem ≤ k) :
    Tiles low (low + d * k + rem) (segLoop d k low rem) := by
  induction k generalizing low rem with
  | zero => have : rem = 0 := by omega
            subst this; simpa [segLoop] using Tiles.nil low
  | succ k ih =>
    simp only [segLoop]
    split
    · have := ih (low + d + 1) (rem - 1) (by omega)
      refine .cons (by omega) ?_
      have e : low + d * (k+1) + rem = low + d + 1 + d * k + (rem - 1) := by
        rw [Nat.mul_succ]; omega
      rw [e]; exact this
    · have := ih (low + d) rem (by omega)
      refine .cons (by omega) ?_
      have e : low + d * (k+1) + rem = low + d + d * k + rem := by rw [Nat.mul_succ]; omega
      rw [e]; exact this

/-- **C03**. For any number of bins, any number of workers (at least one) and any cap, the bands
handed to the workers are consecutive and tile `[0, bins)`; there is at most one band per worker
and no more than the cap; every band is non-empty and the sizes differ by at most one. -/
theorem segmentBins_tile (bins futexWakeup maxCores : Nat) (hf : 0 < futexWakeup) :
    Tiles 0 bins (segmentBins bins futexWakeup maxCores) ∧
    (segmentBins bins futexWakeup maxCores).length ≤ futexWakeup ∧
    (0 < maxCores → (segmentBins bins futexWakeup maxCores).length ≤ maxCores) ∧
    (∀ p ∈ segmentBins bins futexWakeup maxCores, p.1 < p.2) ∧
    (∀ p ∈ segmentBins bins futexWakeup maxCores, ∀ q ∈ segmentBins bins futexWakeup maxCores,
      p.2 - p.1 ≤ q.2 - q.1 + 1) := by
  have hc : (segCores bins futexWakeup maxCores) ≤ bins ∧
      (segCores bins futexWakeup maxCores) ≤ futexWakeup ∧
      (0 < maxCores → segCores bins futexWakeup maxCores ≤ maxCores) ∧
      (segCores bins futexWakeup maxCores = 0 → bins = 0) := by
    unfold segCores; simp only; repeat' split
    all_goals omega
  unfold segmentBins
  simp only
  by_cases h0 : 0 < segCores bins futexWakeup maxCores
  · have hd : 0 < bins / segCores bins futexWakeup maxCores := Nat.div_pos hc.1 h0
    simp only [h0, if_true]
    refine ⟨?_, ?_, ?_, ?_, ?_⟩
    · have := segLoop_tiles (bins / segCores bins futexWakeup maxCores)
        (segCores bins futexWakeup maxCores) 0 (bins % segCores bins futexWakeup maxCores)
        (Nat.le_of_lt (Nat.mod_lt _ h0))
      have e : 0 + bins / segCores bins futexWakeup maxCores * segCores bins futexWakeup maxCores
          + bins % segCores bins futexWakeup maxCores = bins := by
        rw [Nat.zero_add, Nat.mul_comm]; exact Nat.div_add_mod _ _
      rw [e] at this; exact this
    · rw [segLoop_length]; exact hc.2.1
    · intro h; rw [segLoop_length]; exact hc.2.2.1 h
    · intro p hp; have := segLoop_ordered _ _ _ _ p hp; omega
    · intro p hp q hq
      have h1 := segLoop_ordered _ _ _ _ p hp
      have h2 := segLoop_ordered _ _ _ _ q hq
      omega
  · have hb := hc.2.2.2 (by omega)
    simp only [h0, if_false]
    rw [hb]
    exact ⟨.nil 0, by simp, by simp, by simp, by simp⟩

/-! ## Non-vacuity -/

example : segmentBins 10 4 3 = [(0, 4), (4, 7), (7, 10)] := by decide
example : segmentBins 2 4 0 = [(0, 1), (1, 2)] := by decide
/-- With no worker to wake (`FutexWakeCount = 0`) the code produces no band at all. -/
example : segmentBins 10 0 0 = [] := by decide

/-- A complete run with one worker: the worker wakes up in time and runs block 1 of 2 while the
main thread runs block 0; the worker finishes first. -/
theorem poolRun_example : PoolRun 1 2 [0, 1] := by
  have r0 : Reachable 1 (init 1) := .init
  have r1 := r0.step (.inl (.submit _ 2 rfl))
  have r2 := r1.step (.inr (.mSetWakeup _ 4 rfl))
  have r3 := r2.step (.inl (.wWake _ 0 rfl))
  have r4 := r3.step (.inr (.wReadIndex _ 0 rfl))
  have r5 := r4.step (.inr (.wReadCompleted _ 0 1 rfl))
  have r6 := r5.step (.inr (.wTicket _ 0 rfl))
  have r7 := r6.step (.inr (.wEnter _ 0 rfl))
  have r8 := r7.step (.inr (.mFetch _ rfl (by decide)))
  have r9 := r8.step (.inr (.wFetch _ 0 false rfl (by decide)))
  have r10 := r9.step (.inr (.wComplete _ 0 1 false rfl))
  have r11 := r10.step (.inr (.mComplete _ 0 rfl))
  have r12 := r11.step (.inr (.mFetchNone _ rfl (by decide)))
  have r13 := r12.step (.inr (.mWaitDone _ rfl (by decide)))
  have r14 := r13.step (.inr (.wFetchNone _ 0 true rfl (by decide)))
  have r15 := r14.step (.inr (.wReadIndex _ 0 rfl))
  have r16 := r15.step (.inr (.wReadCompleted _ 0 1 rfl))
  have r17 := r16.step (.inr (.wSleep _ 0 rfl))
  exact ⟨_, _, r17, rfl, rfl, rfl, .mReturn _ rfl rfl, rfl, rfl⟩

/-- The block geometry of an array of 40000 rows: two full blocks and one of 7232 rows. -/
example : (List.range (blockLastGeneric 40000 chunk)).map
    (blockLen 40000 chunk (blockLastGeneric 40000 chunk)) = [16384, 16384, 7232] := by decide

end Riptide.Work
