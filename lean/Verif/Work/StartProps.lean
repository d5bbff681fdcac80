import Verif.Work.StartLemmas

namespace Riptide.Work

/-! ## How many workers -/

/-- **C149**. Whatever the processors, there is at least one worker, at most 31, and a handle for
each of them. -/
theorem worker_count_bounds {cpus : CpuSet} {n : Nat} (h : procCount cpus = some n) :
    1 ≤ n ∧ n ≤ 31 ∧ n ≤ maxHandles := by
  cases cpus with
  | none => cases h
  | some f =>
    simp only [procCount, Option.bind_eq_bind, Option.bind_some, Option.pure_def,
      Option.some.injEq] at h
    subst h
    unfold limitCount cannotDetect maxThreads maxHandles
    simp only
    split <;> split <;> omega

/-- **C149**. The number of workers, exactly: one for each of the first 63 processors which the
process may run on, five when there is none among them, and never more than 31. -/
theorem worker_count {allowed : Nat → Bool} {cpus : List Nat} (h : Processors allowed cpus) :
    procCount (some allowed) = some
      (if (cpus.filter (· < 63)).length = 0 then 5 else min (cpus.filter (· < 63)).length 31) := by
  simp only [procCount, Option.bind_eq_bind, Option.bind_some, Option.pure_def,
    Option.some.injEq, count_processors h]
  unfold limitCount cannotDetect maxThreads
  simp only
  split <;> split <;> omega

/-- **C149** (processors 0 to 62). One worker for each processor the process may run on, up to 31.
Missing: processors from 63 on, see `workers_processor_63_ignored`, and a failing
`sched_getaffinity`, see `worker_count_undefined`. -/
theorem workers_per_processor_partial {allowed : Nat → Bool} {cpus : List Nat}
    (h : Processors allowed cpus) (hsome : cpus ≠ []) (hlow : ∀ c ∈ cpus, c < 63) :
    procCount (some allowed) = some (min cpus.length 31) := by
  rw [worker_count h]
  have e : cpus.filter (· < 63) = cpus := by
    rw [List.filter_eq_self]; intro c hc; simpa using hlow c hc
  have : cpus.length ≠ 0 := by simpa using hsome
  rw [e, if_neg this]

example : Processors (fun c => c == 1 || c == 4 || c == 7) [4, 1, 7] ∧
    procCount (some fun c => c == 1 || c == 4 || c == 7) = some 3 := by
  refine ⟨⟨by decide, fun c => ?_⟩, by decide +kernel⟩
  simp only [List.mem_cons, List.not_mem_nil, or_false, Bool.or_eq_true, beq_iff_eq]
  omega

/-! ## How many of them are woken -/

/-- **C149**. Whatever Python asked for, and however often, the setting lies between 1 and 31. -/
theorem wake_setting_bounds (calls : List Int) : 1 ≤ wakeSetting calls ∧ wakeSetting calls ≤ 31 := by
  have hc : ∀ v, 1 ≤ clampWake v ∧ clampWake v ≤ 31 := by
    intro v; unfold clampWake wakeMax; simp only; split <;> split <;> omega
  unfold wakeSetting
  rcases List.eq_nil_or_concat calls with h | ⟨l, v, h⟩
  · subst h; decide
  · subst h; simp only [List.concat_eq_append, List.foldl_append, List.foldl_cons, List.foldl_nil]
    exact hc _

/-- **C149**. An operation wakes at least one worker, never more than the setting, and exactly as
many as it asks for when the setting allows it. -/
theorem wake_count_bounds (calls : List Int) (asked : Int) :
    1 ≤ wakeCount asked (wakeSetting calls) ∧
      wakeCount asked (wakeSetting calls) ≤ wakeSetting calls ∧
      (1 ≤ asked → asked ≤ wakeSetting calls → wakeCount asked (wakeSetting calls) = asked) := by
  have h := wake_setting_bounds calls
  generalize wakeSetting calls = w at h ⊢
  unfold wakeCount
  split
  · omega
  · split <;> omega

/-- **C149**. Hence the bands which the bins are cut into, with any setting that Python can make,
tile the bins: the assumption of C03 always holds. -/
theorem bands_tile_whatever_the_setting (calls : List Int) (bins maxCores : Nat) :
    Tiles 0 bins (segmentBins bins (wakeSetting calls).toNat maxCores) :=
  (segmentBins_tile bins _ maxCores (by have := wake_setting_bounds calls; omega)).1

/-- **C149** (numbers of 32 bits). The setting becomes the number asked for, brought into the range
1 to 31, and the answer is the setting before.  Missing: larger numbers, see
`wake_up_number_cut_to_32_bits`. -/
theorem set_wake_up_partial (setting v : Int) (h : -2 ^ 31 ≤ v) (h' : v < 2 ^ 31) :
    (setWakeUp setting v).1 = max 1 (min v 31) ∧ (setWakeUp setting v).2 = setting := by
  have e : toInt32 v = v := by
    unfold toInt32
    rw [Int.emod_eq_of_lt (by omega) (by omega)]; omega
  refine ⟨?_, rfl⟩
  simp only [setWakeUp, e]
  unfold clampWake wakeMax
  simp only
  split <;> split <;> omega

example : wakeSetting [] = 11 ∧ wakeSetting [3, 0, 100, 7] = 7 ∧ wakeCount 0 7 = 7 ∧
    wakeCount 3 7 = 3 ∧ wakeCount 20 7 = 7 := by decide

/-! ## Starting -/

/-- **C149**. When the loading of the module returns, under any schedule, there are as many workers
as wanted and they are numbered from 0, each number given once. -/
theorem start_numbers_workers {count : Nat} {fails : Nat → Bool} {s : Boot}
    (h : BootReach count fails s) (hd : s.main = .done) :
    Numbered count (s.threads.map TPc.core) ∧ s.running = count := by
  obtain ⟨_, h2, h3, _⟩ := h.inv.full (by rw [hd]; rfl)
  refine ⟨?_, h2⟩
  rw [Numbered, filterMap_full _ h3, ← h2]
  exact h.inv.nums.map _

/-- At no moment do two workers hold the same number. -/
theorem start_numbers_distinct {count : Nat} {fails : Nat → Bool} {s : Boot}
    (h : BootReach count fails s) : (s.threads.filterMap TPc.core).Nodup :=
  h.inv.nums.nodup_iff.2 List.nodup_range

/-- Any number of steps of the loading. -/
inductive BootSteps (count : Nat) (fails : Nat → Bool) : Boot → Boot → Prop where
  | refl (s : Boot) : BootSteps count fails s s
  | head {s t u : Boot} : BootStep count fails s t → BootSteps count fails t u →
      BootSteps count fails s u

/-- **C149**. The loading cannot go on for ever unless threads keep waking up by themselves. -/
theorem start_steps_terminate (count : Nat) (fails : Nat → Bool) :
    WellFounded (fun t s : Boot => BootStep count fails s t) :=
  Subrelation.wf (fun h => BootStep.measure_lt h) (measure (Boot.measure count)).wf

/-- **C149** (every thread can be created). From any state the loading runs to its return.
Missing: a thread which cannot be created, see `start_never_returns`. -/
theorem start_returns_partial {count : Nat} {fails : Nat → Bool} {s : Boot}
    (h : BootReach count fails s) (ok : ∀ i < count, fails i = false) :
    ∃ t, BootSteps count fails s t ∧ t.main = .done := by
  induction s using (start_steps_terminate count fails).induction with
  | _ s ih =>
    by_cases hm : s.main = .done
    · exact ⟨s, .refl s, hm⟩
    · obtain ⟨t, ht⟩ := h.inv.progress ok hm
      obtain ⟨u, hu, hi⟩ := ih t ht (h.step ht)
      exact ⟨u, .head ht hu, hi⟩

/-- **C149**. The state which the loading leaves behind is one of those the protocol of the
operations can be in (C01, C02, C44), even when some workers are not yet asleep. -/
theorem start_leaves_pool {count : Nat} {fails : Nat → Bool} {s : Boot}
    (h : BootReach count fails s) (hd : s.main = .done) : Reachable count s.pool := by
  have hp := h.padded
  obtain ⟨h1, _⟩ := h.inv.full (by rw [hd]; rfl)
  have e : s.padded count = s.pool := by
    simp [Boot.padded, Boot.pool, h1]
  rw [e] at hp
  exact hp

/-- **C149**. Hence the first operation after the loading returns, too. -/
theorem first_operation_returns {count : Nat} {fails : Nat → Bool} {s : Boot}
    (h : BootReach count fails s) (hd : s.main = .done) {t : St} (r : Runs s.pool t) :
    ∃ u, ThreadSteps t u ∧ u.main = .idle := by
  have : Reachable count t := by
    induction r with
    | refl => exact start_leaves_pool h hd
    | step _ st ih => exact ih.step st
  exact operation_returns this

/-- The loading with two workers, the second one running first. -/
def bootEnd : Boot := ⟨2, 0, .done, [.asleep 1, .asleep 0]⟩

theorem boot_example : BootReach 2 (fun _ => false) bootEnd := by
  have r0 : BootReach 2 (fun _ => false) boot := .start
  have r1 := r0.step (.create _ 0 rfl (by decide) rfl)
  have r2 := r1.step (.create _ 1 rfl (by decide) rfl)
  have r3 := r2.step (.number _ 1 rfl)
  have r4 := r3.step (.number _ 0 rfl)
  have r5 := r4.step (.created _ rfl)
  have r6 := r5.step (.first _ 0 1 rfl)
  have r7 := r6.step (.allRun _ rfl (by decide))
  have r8 := r7.step (.first _ 1 0 rfl)
  have r9 := r8.step (.look _ 0 1 rfl)
  have r10 := r9.step (.sleep _ 0 1 rfl)
  have r11 := r10.step (.look _ 1 0 rfl)
  have r12 := r11.step (.sleep _ 1 0 rfl)
  exact r12.step (.allIdle _ rfl rfl)

example : Reachable 2 bootEnd.pool := start_leaves_pool boot_example rfl

/-! ## A forked child -/

/-- **C149** (nobody awake). A child forked while no worker was counted as awake can go on: from
any later moment its operation returns, and one which was not interrupted has done each item once.
Missing: a child forked while a worker was awake, see `forked_child_never_returns`. -/
theorem forked_child_works_partial {n : Nat} {s : St} (h : Reachable n s) (hm : s.main = .idle)
    (h0 : s.awakened = 0) {t : St} (r : Runs (forked s) t) :
    (∃ u, ThreadSteps t u ∧ u.main = .idle) ∧
      (t.main = .joining → t.interrupted = false → EachOnce t.blockLast t.finished) := by
  have hi : Inv t := (h.inv.forked hm h0).runs r
  refine ⟨?_, fun hj hint => eachOnce_of_perm (hi.finished_perm (hi.done hj hint))⟩
  clear r
  induction t using thread_steps_terminate.induction with
  | _ t ih =>
    by_cases hm : t.main = .idle
    · exact ⟨t, .refl t, hm⟩
    · obtain ⟨u, hu⟩ := hi.progress hm
      obtain ⟨v, hv, hidle⟩ := ih u hu (hi.thread hu)
      exact ⟨v, .head hu hv, hidle⟩

example : Reachable 3 (init 3) ∧ (init 3).main = .idle ∧ (init 3).awakened = 0 :=
  ⟨.init, rfl, rfl⟩

end Riptide.Work
