import Verif.Reduce.Sum
/-! # A float sum that is lost in the parallel path -/
namespace Riptide.Reduce
open Riptide.Work

/-- `2^63` followed by zeros. -/
def lostSum (zeros : Nat) : List Dbl := some (2 ^ 63) :: List.replicate zeros (some 0)

theorem sched_example : CoreSched 1 32768 false (some [[0, 1], []]) :=
  CoreSched.pool (workers := 1) (len := 32768) (noThreading := false) [0, 1] (fun _ => 0)
    (by decide) (by
      have : blockLastGeneric 32768 chunk = 2 := by decide
      rw [this]; exact poolRun_example) (by intro b; omega)

set_option maxRecDepth 100000 in
theorem lostSum_parallel :
    reduceSumFlt IT.i64.inv (lostSum 32767) (some [[0, 1], []]) = none := by decide +kernel

theorem lostSum_length (n : Nat) : (lostSum n).length = n + 1 := by simp [lostSum]

/-- C49 does not hold for large float sums computed in parallel: converting the partial sum `2^63` to
`int64_t` is undefined; with the x86-64 result (`INT64_MIN`, riptide's invalid value) the gather step
replaces the correct sum by NaN, while the direct path returns it. -/
theorem sum_flt_large_nan :
    CoreSched 1 (lostSum 32767).length false (some [[0, 1], []]) ∧
    reduceSumFlt IT.i64.inv (lostSum 32767) (some [[0, 1], []]) = none ∧
    reduceSumFlt IT.i64.inv (lostSum 100) none = some (2 ^ 63) := by
  refine ⟨?_, lostSum_parallel, by decide +kernel⟩
  rw [lostSum_length]
  exact sched_example

end Riptide.Reduce
