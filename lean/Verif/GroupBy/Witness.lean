import Verif.GroupBy.FloatProps
/-! # Group sums and means that depend on the schedule -/
namespace Riptide.GroupBy
open Riptide.Work Spec

/-- A run with one worker over three blocks: the main thread runs blocks 0 and 1, then the worker
block 2. -/
theorem poolRun_three : PoolRun 1 3 [2, 1, 0] := by
  have r0 : Reachable 1 (init 1) := .init
  have r1 := r0.step (.inl (.submit _ 3 rfl))
  have r2 := r1.step (.inr (.mSetWakeup _ 4 rfl))
  have r3 := r2.step (.inl (.wWake _ 0 rfl))
  have r4 := r3.step (.inr (.wReadIndex _ 0 rfl))
  have r5 := r4.step (.inr (.wReadCompleted _ 0 1 rfl))
  have r6 := r5.step (.inr (.wTicket _ 0 rfl))
  have r7 := r6.step (.inr (.wEnter _ 0 rfl))
  have r8 := r7.step (.inr (.mFetch _ rfl (by decide)))
  have r9 := r8.step (.inr (.mComplete _ 0 rfl))
  have r10 := r9.step (.inr (.mFetch _ rfl (by decide)))
  have r11 := r10.step (.inr (.mComplete _ 1 rfl))
  have r12 := r11.step (.inr (.wFetch _ 0 false rfl (by decide)))
  have r13 := r12.step (.inr (.wComplete _ 0 2 false rfl))
  have r14 := r13.step (.inr (.mFetchNone _ rfl (by decide)))
  have r15 := r14.step (.inr (.mWaitDone _ rfl (by decide)))
  have r16 := r15.step (.inr (.wFetchNone _ 0 true rfl (by decide)))
  have r17 := r16.step (.inr (.wReadIndex _ 0 rfl))
  have r18 := r17.step (.inr (.wReadCompleted _ 0 1 rfl))
  have r19 := r18.step (.inr (.wSleep _ 0 rfl))
  exact ⟨_, _, r19, rfl, rfl, rfl, .mReturn _ rfl rfl, rfl, rfl⟩

theorem sched_three : CoreSched 1 32769 false (some [[1, 0], [2]]) :=
  CoreSched.pool (workers := 1) (len := 32769) (noThreading := false) [2, 1, 0]
    (fun b => if b = 2 then 1 else 0) (by decide) (by
      have : blockLastGeneric 32769 chunk = 3 := by decide
      rw [this]; exact poolRun_three) (by intro b; split <;> omega)

theorem sched_two : CoreSched 1 32768 false (some [[0], [1]]) :=
  CoreSched.pool (workers := 1) (len := 32768) (noThreading := false) [0, 1]
    (fun b => b % 2) (by decide) (by
      have : blockLastGeneric 32768 chunk = 2 := by decide
      rw [this]; exact poolRun_example) (by intro b; omega)

theorem groupByAll_some {T U D : Type} {g : Agg T U D} {n lo hi : Nat} {rows : List (Int × T)}
    {cores : List (List Nat)} (h : n * 10 < rows.length) :
    groupByAll g n lo hi rows (some cores) = scattered g n lo hi rows cores := if_pos h

/-- One row in bin 1, the others in bin 0; three blocks, the last with one row. -/
def shortRows : List (Int × Option Int) := (1, some 8) :: List.replicate 32768 (0, some 1)

set_option maxRecDepth 100000 in
theorem nansum_scattered_uninitialised : scattered (aggNanSumFloat (valArith .f32) valWide) 2 1 2
    shortRows [[1, 0], [2]] = some [some (.num 0), none] := by decide +kernel

set_option maxRecDepth 100000 in
theorem nanmean_scattered_uninitialised : scattered (aggNanMeanFloat (valArith .f32) valWide) 2 1 2
    shortRows [[1, 0], [2]] = some [some (.num 0), none] := by decide +kernel

/-- C24 is false on the scattered path too: with bin 1 of 2 asked for, the core that runs only the
last block, of one row, never initialises its copy of bin 1, and the gather loop adds it to the
result.  On the sequential path the same column gives 8. -/
theorem group_nan_float32_scattered_uninitialised :
    CoreSched 1 shortRows.length false (some [[1, 0], [2]]) ∧
    groupByAll (aggNanSumFloat (valArith .f32) valWide) 2 1 2 shortRows (some [[1, 0], [2]]) =
      some [some (.num 0), none] ∧
    groupByAll (aggNanMeanFloat (valArith .f32) valWide) 2 1 2 shortRows (some [[1, 0], [2]]) =
      some [some (.num 0), none] := by
  have hl : shortRows.length = 32769 := by
    unfold shortRows
    rw [List.length_cons, List.length_replicate]
  refine ⟨by rw [hl]; exact sched_three, ?_, ?_⟩
  · rw [groupByAll_some (by rw [hl]; decide)]
    exact nansum_scattered_uninitialised
  · rw [groupByAll_some (by rw [hl]; decide)]
    exact nanmean_scattered_uninitialised

/-- `2^53` in the first block, two ones in the second, all in bin 0; the other rows are in no bin. -/
def bigRows : List (Int × Option Int) :=
  (0, some (2 ^ 53)) :: (List.replicate 16383 (5, some 0) ++
    ((0, some 1) :: (0, some 1) :: List.replicate 16382 (5, some 0)))

set_option maxRecDepth 100000 in
theorem bigRows_scattered : scattered (aggMean (valArith .f64) : Agg (Option Int) Val Unit) 1 0 1
    bigRows [[0], [1]] = some [some (.quot (2 ^ 53 + 2) 3)] := by decide +kernel

set_option maxRecDepth 100000 in
theorem bigRows_sequential :
    groupByAll (aggMean (valArith .f64) : Agg (Option Int) Val Unit) 1 0 1 bigRows none =
      some [some (.quot (2 ^ 53) 3)] := by decide +kernel

/-- C26 is false beyond the bound: the group mean depends on how the blocks fell to the cores. -/
theorem group_mean_schedule_dependent :
    CoreSched 1 bigRows.length false (some [[0], [1]]) ∧ CoreSched 1 bigRows.length true none ∧
    groupByAll (aggMean (valArith .f64) : Agg (Option Int) Val Unit) 1 0 1 bigRows
      (some [[0], [1]]) = some [some (.quot (2 ^ 53 + 2) 3)] ∧
    groupByAll (aggMean (valArith .f64) : Agg (Option Int) Val Unit) 1 0 1 bigRows none =
      some [some (.quot (2 ^ 53) 3)] := by
  have hl : bigRows.length = 32768 := by
    unfold bigRows
    rw [List.length_cons, List.length_append, List.length_cons, List.length_cons,
      List.length_replicate, List.length_replicate]
  refine ⟨by rw [hl]; exact sched_two, .direct (.inr rfl), ?_, bigRows_sequential⟩
  rw [groupByAll_some (by rw [hl]; decide)]
  exact bigRows_scattered

end Riptide.GroupBy
