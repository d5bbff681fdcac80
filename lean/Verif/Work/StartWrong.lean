import Verif.Work.StartProps

/-! # Where the start of the pool goes wrong -/

namespace Riptide.Work

/-- **C149, false of the code**. The mask is filled from the first 63 processors only
(`i < 63`): a process bound to eight processors, 60 to 67, gets three workers. -/
theorem workers_processor_63_ignored :
    Processors (fun c => decide (60 ≤ c) && decide (c < 68)) (List.range' 60 8) ∧
      procCount (some fun c => decide (60 ≤ c) && decide (c < 68)) = some 3 := by
  refine ⟨⟨by decide, fun c => ?_⟩, by decide +kernel⟩
  simp only [List.mem_range'_1, Bool.and_eq_true, decide_eq_true_eq]

/-- **C149, false of the code**. A process bound to one processor from 63 on gets five workers:
the mask is empty, and the number for "cannot detect" is taken. -/
theorem workers_more_than_processors (c : Nat) (h : 63 ≤ c) :
    Processors (fun x => x == c) [c] ∧ procCount (some fun x => x == c) = some 5 := by
  have hp : Processors (fun x => x == c) [c] := ⟨by simp, fun x => by simp⟩
  refine ⟨hp, ?_⟩
  rw [worker_count hp]
  have : ¬ c < 63 := by omega
  simp [this]

/-- **C149, false of the code**. When the mask of the process is empty the mask of the system is
set in its place, twice. -/
theorem empty_mask_stays_empty (allowed : Nat → Bool) (h : ∀ c < 63, allowed c = false) :
    affinityMasks allowed = (0, 0xFF) := by
  have e : (affinityMasks allowed).1 = 0 := by
    apply BitVec.eq_of_getLsbD_eq
    intro j _
    rw [mask_bit]
    by_cases hj : j < 63
    · simp [h j hj]
    · simp [hj]
  have e2 : (affinityMasks allowed).2 = if (affinityMasks allowed).1 = 0 then 0xFF else
      (affinityMasks allowed).1 := rfl
  rw [e] at e2
  exact Prod.ext e (by rw [e2]; rfl)

example : ∀ c < 63, (fun x => x == 64) c = false := by decide

/-- **C149, false of the code**. When the kernel refuses to tell the processors, the number of
workers comes from a set which nobody wrote. -/
theorem worker_count_undefined : procCount none = none := rfl

/-- **C149, false of the code**. `SetThreadWakeUp` cuts its number to 32 bits before bringing it
into the range: a number beyond the largest one wakes few workers, not all of them. -/
theorem wake_up_number_cut_to_32_bits :
    (setWakeUp 11 (2 ^ 32 + 3)).1 = 3 ∧ (setWakeUp 11 (2 ^ 31)).1 = 1 ∧
      (setWakeUp 11 (-2 ^ 32 + 20)).1 = 20 := by decide

/-- **C149, false of the code**. When one thread cannot be created, the loading of the module
never returns, whatever the other threads do: it waits for as many threads as were wanted. -/
theorem start_never_returns {count : Nat} {fails : Nat → Bool} {s : Boot}
    (h : BootReach count fails s) {i : Nat} (hi : i < count) (bad : fails i = true) :
    s.main ≠ .done := by
  intro hd
  have := (h.inv.full (by rw [hd]; rfl)).2.2.2 i hi
  rw [bad] at this
  cases this

/-- The loading with two workers wanted of which the second cannot be created: the only thread
sleeps, and the loading waits. -/
example : BootReach 2 (fun i => i == 1) ⟨1, 0, .waitRunning, [.asleep 0]⟩ ∧
    ¬ ∃ t, BootStep 2 (fun i => i == 1) ⟨1, 0, .waitRunning, [.asleep 0]⟩ t := by
  constructor
  · have r0 : BootReach 2 (fun i => i == 1) boot := .start
    have r1 := r0.step (.create _ 0 rfl (by decide) rfl)
    have r2 := r1.step (.createFails _ 1 rfl (by decide) rfl)
    have r3 := r2.step (.created _ rfl)
    have r4 := r3.step (.number _ 0 rfl)
    have r5 := r4.step (.first _ 0 0 rfl)
    have r6 := r5.step (.look _ 0 0 rfl)
    exact r6.step (.sleep _ 0 0 rfl)
  · rintro ⟨t, st⟩
    cases st with
    | allRun h ok => revert ok; decide
    | number k h => cases k <;> simp at h
    | first k c h => cases k <;> simp at h
    | look k c h => cases k <;> simp at h
    | sleep k c h => cases k <;> simp at h
    | create i h => cases h
    | createFails i h => cases h
    | created h => cases h
    | allIdle h => cases h

/-- **C149, false of the code**. The second wait ("wait for all of the worker threads to idle") can
end before any worker has been idle: a worker which has taken its number but is not yet counted as
awake is not waited for. -/
theorem start_returns_before_idle :
    ∃ s, BootReach 2 (fun _ => false) s ∧ s.main = .done ∧
      s.threads = [.numbered 0, .numbered 1] := by
  have r0 : BootReach 2 (fun _ => false) boot := .start
  have r1 := r0.step (.create _ 0 rfl (by decide) rfl)
  have r2 := r1.step (.create _ 1 rfl (by decide) rfl)
  have r3 := r2.step (.created _ rfl)
  have r4 := r3.step (.number _ 0 rfl)
  have r5 := r4.step (.number _ 1 rfl)
  have r6 := r5.step (.allRun _ rfl (by decide))
  exact ⟨_, r6.step (.allIdle _ rfl rfl), rfl, rfl⟩

/-- The child submits an operation of `last` items. -/
def submitted (s : St) (last : Nat) : St :=
  { s with blockLast := last, blocksCompleted := 0, blockNext := 0, finished := [],
           workIndex := s.workIndex + 1, main := .published }

/-- **C149, false of the code**. A child forked while some worker was counted as awake hangs in its
first parallel operation, whatever happens: the worker which would take the count back does not
exist in the child. -/
theorem forked_child_never_returns {n : Nat} {s : St} (_h : Reachable n s) (hm : s.main = .idle)
    (h0 : s.awakened ≠ 0) (last : Nat) :
    Step (forked s) (submitted (forked s) last) ∧
      ∀ t, Runs (submitted (forked s) last) t → t.main ≠ .idle := by
  refine ⟨.inl (EnvStep.submit _ last hm), ?_⟩
  intro t r
  have : Lonely s.awakened t ∧ t.main ≠ .idle := by
    induction r with
    | refl => exact ⟨⟨rfl, rfl⟩, by simp [submitted]⟩
    | step _ st ih => exact ih.1.step h0 ih.2 st
  exact this.2

/-- Such a moment exists outside any operation, with any number of workers: one woken by the end of
the last operation, or for no reason, is counted before it looks for work. -/
theorem fork_with_worker_awake (n : Nat) (hn : 0 < n) :
    ∃ s, Reachable n s ∧ s.main = .idle ∧ s.awakened ≠ 0 := by
  have hw : (init n).workers[0]? = some .asleep := by
    simp [init, hn]
  exact ⟨_, Reachable.init.step (.inl (.wWake _ 0 hw)), rfl, by simp [init]⟩

end Riptide.Work
