import Verif.Rolling.Props
/-! Rolling sums and means (C28, C59). -/
namespace Riptide.Rolling
open Spec Pack.Spec
open GroupBy (Val rndTo Exact exact_f64 exact_f32 natAbs_sum_le)
open GroupBy.Spec (validVals)

/-! ## Integer columns -/

theorem wrap_sub (u : IT) (a b : Int) : u.wrap (u.wrap a - u.wrap b) = u.wrap (a - b) := by
  unfold IT.wrap
  have h : ∀ x m l : Int, (x - l) % m + l - x = -(m * ((x - l) / m)) := by
    intro x m l
    have := Int.emod_add_mul_ediv (x - l) m
    omega
  have e : (a - u.lo) % (2 : Int) ^ u.bits + u.lo - ((b - u.lo) % (2 : Int) ^ u.bits + u.lo) - u.lo =
      (a - b - u.lo) + (2 : Int) ^ u.bits * ((b - u.lo) / (2 : Int) ^ u.bits - (a - u.lo) / (2 : Int) ^ u.bits) := by
    have h1 := h a ((2 : Int) ^ u.bits) u.lo
    have h2 := h b ((2 : Int) ^ u.bits) u.lo
    rw [Int.mul_sub]
    omega
  rw [e, Int.add_mul_emod_self_left]

theorem wrap_add (u : IT) (a b : Int) : u.wrap (u.wrap a + u.wrap b) = u.wrap (a + b) := by
  rw [GroupBy.wrap_add_left, GroupBy.wrap_add_right]

theorem intRun_keeps (u : IT) (hu : 0 < u.bits) (vals : List Int) :
    Keeps (intRun u) vals fun _ w => u.wrap w.sum := by
  refine ⟨(GroupBy.wrap_zero u hu).symm, fun pre w x post _ => ?_, fun pre y w post _ => ?_⟩
  · show u.wrap (u.wrap w.sum + u.wrap x) = u.wrap (w ++ [x]).sum
    rw [wrap_add, List.sum_append, List.sum_singleton]
  · show u.wrap (u.wrap (y :: w).sum - u.wrap y) = u.wrap w.sum
    rw [wrap_sub, List.sum_cons]
    congr 1
    omega

/-- **C28** for rolling sums of integer columns: the row at position `k` of its group gets the sum of
the last `min w (k + 1)` values of the group modulo the width of the output, rows of bin 0 get the
invalid value, and every row is written.  (Values equal to the sentinel are added as numbers.)
What is missing from the full statement is exactly the guard on the window in `Grouped`, and the
windows below 0 (`accumRolling_negative`). -/
theorem accumRollingSum_int_partial {u : IT} (hu : 0 < u.bits) {keys : List Int} {src : List Int}
    {bins : Nat} {P : Packed} {w : Nat} (hG : Grouped keys bins P w) (hl : src.length = keys.length)
    (inv : Int) :
    ∃ out, accumRolling (intRun u) inv src P w 0 bins = some out ∧ out.length = keys.length ∧
      (∀ b k r, b < bins → (rowsOf keys b)[k]? = some r → out[r]? = some (some (if b = 0 then inv else
        u.wrap (window (groupVals keys src b) w k).sum))) ∧
      ∀ r, r < keys.length → ∃ v, out[r]? = some (some v) :=
  accumRolling_run hG hl inv fun _ _ _ => intRun_keeps u hu _

theorem intNanRun_keeps (t u : IT) (hu : 0 < u.bits) (vals : List Int) :
    Keeps (intNanRun t u) vals fun _ w => u.wrap (w.filter (· ≠ t.inv)).sum := by
  refine ⟨(GroupBy.wrap_zero u hu).symm, fun pre w x post _ => ?_, fun pre y w post _ => ?_⟩
  · show (if x = t.inv then u.wrap (w.filter (· ≠ t.inv)).sum
      else u.wrap (u.wrap (w.filter (· ≠ t.inv)).sum + u.wrap x)) = _
    rw [List.filter_append, List.sum_append]
    by_cases hx : x = t.inv
    · rw [if_pos hx, List.filter_cons_of_neg (by simp [hx])]
      simp
    · rw [if_neg hx, List.filter_cons_of_pos (by simp [hx]), wrap_add]
      simp
  · show (if y = t.inv then u.wrap ((y :: w).filter (· ≠ t.inv)).sum
      else u.wrap (u.wrap ((y :: w).filter (· ≠ t.inv)).sum - u.wrap y)) = _
    by_cases hx : y = t.inv
    · rw [if_pos hx, List.filter_cons_of_neg (by simp [hx])]
    · rw [if_neg hx, List.filter_cons_of_pos (by simp [hx]), wrap_sub, List.sum_cons]
      congr 1
      omega

/-- **C28** for rolling nansums of integer columns: the sum of the valid values of the window. -/
theorem accumRollingNanSum_int_partial {t u : IT} (hu : 0 < u.bits) {keys : List Int} {src : List Int}
    {bins : Nat} {P : Packed} {w : Nat} (hG : Grouped keys bins P w) (hl : src.length = keys.length)
    (inv : Int) :
    ∃ out, accumRolling (intNanRun t u) inv src P w 0 bins = some out ∧ out.length = keys.length ∧
      (∀ b k r, b < bins → (rowsOf keys b)[k]? = some r → out[r]? = some (some (if b = 0 then inv else
        u.wrap ((window (groupVals keys src b) w k).filter (· ≠ t.inv)).sum))) ∧
      ∀ r, r < keys.length → ∃ v, out[r]? = some (some v) :=
  accumRolling_run hG hl inv fun _ _ _ => intNanRun_keeps t u hu _

example : accumRolling (intRun .i64) 0 [10, 20, 30, 40] exPacked 2 0 3 =
    some [some 10, some 20, some 40, some 70] := by decide
example : accumRolling (intNanRun .i8 .i64) 0 [10, 20, -128, 40] exPacked 2 0 3 =
    some [some 10, some 20, some 10, some 40] := by decide

/-! ## Floating-point columns -/

theorem small_mid {M : Nat} {pre w post : List (Option Int)} (h : Small M (pre ++ w ++ post)) :
    (validVals w).sum.natAbs < M := by
  unfold Small at h
  have e : validVals (pre ++ w ++ post) = validVals pre ++ validVals w ++ validVals post := by
    simp [validVals]
  rw [e] at h
  simp only [List.map_append, List.sum_append] at h
  have := natAbs_sum_le (validVals w)
  omega

theorem validVals_some (x : Int) (w : List (Option Int)) : validVals (some x :: w) = x :: validVals w :=
  rfl
theorem validVals_none (w : List (Option Int)) : validVals (none :: w) = validVals w := rfl
theorem validVals_snoc (x : Int) (w : List (Option Int)) :
    validVals (w ++ [some x]) = validVals w ++ [x] := by simp [validVals]

/-- A NaN is never removed from the total: it stays NaN to the end of the group. -/
def stickySum (pre w : List (Option Int)) : Val :=
  if none ∈ pre ++ w then .nan else .num (validVals w).sum

theorem small_one {M : Nat} {pre w post : List (Option Int)} {x : Int}
    (h : Small M (pre ++ w ++ some x :: post)) : x.natAbs < M := by
  have h' : Small M ((pre ++ w) ++ [some x] ++ post) := by simpa using h
  have := small_mid h'
  simpa [validVals] using this

theorem valRun_keeps {f : FT} {M : Nat} (hr : Exact (rndTo f) M) {vals : List (Option Int)}
    (hs : Small M vals) : Keeps (valRun f) vals stickySum := by
  refine ⟨by simp [valRun, stickySum, validVals], fun pre w x post e => ?_, fun pre y w post e => ?_⟩
  · subst e
    show Val.add (rndTo f) (stickySum pre w) (Val.ofCol (rndTo f) x) = stickySum pre (w ++ [x])
    unfold stickySum
    cases x with
    | none =>
      rw [if_pos (by simp : none ∈ pre ++ (w ++ [none]))]
      split <;> rfl
    | some x =>
      by_cases hn : none ∈ pre ++ w
      · rw [if_pos hn, if_pos (by simp at hn ⊢; exact hn)]
        rfl
      · rw [if_neg hn, if_neg (by simp at hn ⊢; exact hn)]
        show Val.num (rndTo f ((validVals w).sum + rndTo f x)) = _
        have h2 : Small M (pre ++ (w ++ [some x]) ++ post) := by simpa using hs
        have h3 := small_mid h2
        rw [validVals_snoc, List.sum_append, List.sum_singleton] at h3 ⊢
        rw [hr x (small_one hs), hr _ h3]
  · subst e
    show valSub (rndTo f) (stickySum pre (y :: w)) (Val.ofCol (rndTo f) y) = stickySum (pre ++ [y]) w
    unfold stickySum
    cases y with
    | none =>
      rw [if_pos (by simp : none ∈ pre ++ none :: w), if_pos (by simp : none ∈ pre ++ [none] ++ w)]
      rfl
    | some y =>
      have hiff : (none ∈ pre ++ some y :: w) ↔ (none ∈ pre ++ [some y] ++ w) := by simp
      by_cases hn : none ∈ pre ++ some y :: w
      · rw [if_pos hn, if_pos (hiff.1 hn)]
        rfl
      · rw [if_neg hn, if_neg fun h => hn (hiff.2 h)]
        show Val.num (rndTo f ((validVals (some y :: w)).sum - rndTo f y)) = _
        have h2 : Small M ((pre ++ [some y]) ++ w ++ post) := by simpa using hs
        have h3 := small_mid h2
        have h4 : Small M (pre ++ [] ++ some y :: (w ++ post)) := by simpa using hs
        rw [validVals_some, List.sum_cons, hr y (small_one h4)]
        rw [show y + (validVals w).sum - y = (validVals w).sum by omega, hr _ h3]

theorem take_window {T : Type} (vals : List T) (w k : Nat) :
    vals.take (k + 1 - w) ++ window vals w k = vals.take (k + 1) := by
  unfold window
  have : vals.take (k + 1 - w) = (vals.take (k + 1)).take (k + 1 - w) := by
    rw [List.take_take]; congr 1; omega
  rw [this, List.take_append_drop]

/-- What `AccumRollingSum` computes on a floating-point column whose groups have small totals: the
window sums as long as the group has had no NaN, NaN from then on. -/
theorem accumRollingSum_val {f : FT} {M : Nat} (hr : Exact (rndTo f) M) {keys : List Int}
    {src : List (Option Int)} {bins : Nat} {P : Packed} {w : Nat} (hG : Grouped keys bins P w)
    (hl : src.length = keys.length) (hs : ∀ b, 1 ≤ b → b < bins → Small M (groupVals keys src b)) :
    ∃ out, accumRolling (valRun f) .nan src P w 0 bins = some out ∧ out.length = keys.length ∧
      (∀ b k r, b < bins → (rowsOf keys b)[k]? = some r → out[r]? = some (some (if b = 0 then .nan else
        stickyAt (groupVals keys src b) w k Val.num))) ∧
      ∀ r, r < keys.length → ∃ v, out[r]? = some (some v) := by
  obtain ⟨out, h1, h2, h3, h4⟩ := accumRolling_run hG hl .nan fun b hb1 hb2 =>
    valRun_keeps hr (hs b hb1 hb2)
  refine ⟨out, h1, h2, fun b k r hb hk => ?_, h4⟩
  rw [h3 b k r hb hk]
  have : (valRun f).emit (stickySum ((groupVals keys src b).take (k + 1 - w))
      (window (groupVals keys src b) w k)) ((min (k + 1) w : Nat) : Int) =
      stickyAt (groupVals keys src b) w k Val.num := by
    show stickySum _ _ = _
    unfold stickySum stickyAt
    rw [take_window]
  rw [this]

/-- **C28** for rolling sums of floating-point columns.  Besides the guard on the window, the group
must have no NaN: a NaN that has left the window stays in the total (`accumRollingSum_sticky`).  The
values must be integers with a small total (`Small`), so that no rounding occurs. -/
theorem accumRollingSum_val_partial {f : FT} {M : Nat} (hr : Exact (rndTo f) M) {keys : List Int}
    {src : List (Option Int)} {bins : Nat} {P : Packed} {w : Nat} (hG : Grouped keys bins P w)
    (hl : src.length = keys.length) (hs : ∀ b, 1 ≤ b → b < bins → Small M (groupVals keys src b))
    (hn : ∀ b, 1 ≤ b → b < bins → none ∉ groupVals keys src b) :
    ∃ out, accumRolling (valRun f) .nan src P w 0 bins = some out ∧ out.length = keys.length ∧
      (∀ b k r, b < bins → (rowsOf keys b)[k]? = some r → out[r]? = some (some (if b = 0 then .nan else
        sumAt (groupVals keys src b) w k Val.num))) ∧
      ∀ r, r < keys.length → ∃ v, out[r]? = some (some v) := by
  obtain ⟨out, h1, h2, h3, h4⟩ := accumRollingSum_val hr hG hl hs
  refine ⟨out, h1, h2, fun b k r hb hk => ?_, h4⟩
  rw [h3 b k r hb hk]
  by_cases h0 : b = 0
  · rw [if_pos h0, if_pos h0]
  · rw [if_neg h0, if_neg h0]
    have hn' := hn b (by omega) hb
    unfold stickyAt sumAt
    rw [if_neg fun h => hn' (List.mem_of_mem_take h),
      if_neg fun h : none ∈ window (groupVals keys src b) w k =>
        hn' (List.mem_of_mem_take (List.mem_of_mem_drop h))]

/-- The full property for floating-point columns: NaN exactly where the window has one. -/
def RollingSumCorrect : Prop := ∀ (keys : List Int) (src : List (Option Int)) (bins : Nat) (P : Packed)
  (w : Nat), Grouped keys bins P w → src.length = keys.length →
  (∀ b, 1 ≤ b → b < bins → Small (2 ^ 53) (groupVals keys src b)) →
  ∃ out, accumRolling (valRun .f64) .nan src P w 0 bins = some out ∧
    ∀ b k r, 1 ≤ b → b < bins → (rowsOf keys b)[k]? = some r →
      out[r]? = some (some (sumAt (groupVals keys src b) w k Val.num))

theorem sticky_run : accumRolling (valRun .f64) .nan [none, some 20, some 30, some 40] exPacked 1 0 3 =
    some [some .nan, some (.num 20), some .nan, some .nan] := by decide +kernel

/-- **C28** is false of `AccumRollingSum` on floating-point columns: with window 1, a NaN in the first
row of a group turns all later rows of the group into NaN. -/
theorem accumRollingSum_sticky : ¬ RollingSumCorrect := by
  intro h
  have hG : Grouped [1, 2, 1, 1] 3 exPacked 1 := { exPacked_grouped with small := by decide }
  obtain ⟨out, e, hv⟩ := h [1, 2, 1, 1] [none, some 20, some 30, some 40] 3 exPacked 1 hG rfl (by
    intro b h1 h2
    have : b = 1 ∨ b = 2 := by omega
    rcases this with rfl | rfl <;> (unfold Small; decide))
  have e := Option.some.inj (sticky_run.symm.trans e)
  have := hv 1 1 2 (by omega) (by omega) (by decide)
  rw [← e] at this
  revert this
  decide

/-! ## Means -/

theorem meanRun_keeps {vals : List (Option Int)} (hs : Small (2 ^ 53) vals) :
    Keeps meanRun vals stickySum :=
  ⟨(valRun_keeps exact_f64 hs).zero, (valRun_keeps exact_f64 hs).push, (valRun_keeps exact_f64 hs).pop⟩

/-- **C59** for rolling means: the sum of the window over the number of its rows, while the group has
had no NaN; NaN from then on.  Missing from the full statement: the guard on the window, and that a NaN
stays after leaving the window (`accumRollingMean_sticky`). -/
theorem accumRollingMean_partial {keys : List Int} {src : List (Option Int)} {bins : Nat} {P : Packed}
    {w : Nat} (hG : Grouped keys bins P w) (hl : src.length = keys.length)
    (hs : ∀ b, 1 ≤ b → b < bins → Small (2 ^ 53) (groupVals keys src b)) :
    ∃ out, accumRolling meanRun .nan src P w 0 bins = some out ∧ out.length = keys.length ∧
      (∀ b k r, b < bins → (rowsOf keys b)[k]? = some r → out[r]? = some (some (if b = 0 then .nan else
        stickyAt (groupVals keys src b) w k fun s => .quot s (window (groupVals keys src b) w k).length))) ∧
      ∀ r, r < keys.length → ∃ v, out[r]? = some (some v) := by
  obtain ⟨out, h1, h2, h3, h4⟩ := accumRolling_run hG hl .nan fun b hb1 hb2 =>
    meanRun_keeps (hs b hb1 hb2)
  refine ⟨out, h1, h2, fun b k r hb hk => ?_, h4⟩
  rw [h3 b k r hb hk]
  have hlen := (groupVals_eq (src := src) hl b).1
  have hk' := (List.getElem?_eq_some_iff.1 hk).1
  have hw : (window (groupVals keys src b) w k).length = min (k + 1) w := by
    unfold window
    rw [List.length_drop, List.length_take]
    omega
  have : meanRun.emit (stickySum ((groupVals keys src b).take (k + 1 - w))
      (window (groupVals keys src b) w k)) ((min (k + 1) w : Nat) : Int) =
      stickyAt (groupVals keys src b) w k
        fun s => .quot s (window (groupVals keys src b) w k).length := by
    rw [hw]
    show Val.div (stickySum _ _) _ = _
    unfold stickySum stickyAt
    rw [take_window]
    split <;> rfl
  rw [this]

/-- A NaN sticks in the rolling mean as well. -/
theorem accumRollingMean_sticky :
    accumRolling meanRun .nan [none, some 20, some 30, some 40] exPacked 1 0 3 =
      some [some .nan, some (.quot 20 1), some .nan, some .nan] ∧
    (window (groupVals [1, 2, 1, 1] [none, some 20, some 30, some 40] 1) 1 2) = [some 40] := by
  decide +kernel

/-- Sum and number of the valid values. -/
def nanAbs (_ w : List (Option Int)) : Val × Int := (.num (validVals w).sum, (validVals w).length)

theorem nanPush_eq {vals : List (Option Int)} (hs : Small (2 ^ 53) vals) (pre w : List (Option Int))
    (x : Option Int) (post : List (Option Int)) (e : vals = pre ++ w ++ x :: post) :
    nanPush (nanAbs pre w) x = nanAbs pre (w ++ [x]) := by
  subst e
  cases x with
  | none => simp [nanPush, nanAbs, validVals]
  | some x =>
    have h2 : Small (2 ^ 53) (pre ++ (w ++ [some x]) ++ post) := by simpa using hs
    have h3 := small_mid h2
    show (Val.num (rndTo .f64 ((validVals w).sum + rndTo .f64 x)), ((validVals w).length : Int) + 1) = _
    unfold nanAbs
    rw [validVals_snoc, List.sum_append, List.sum_singleton] at h3 ⊢
    rw [exact_f64 x (small_one hs), exact_f64 _ h3]
    simp

theorem nanPop_eq {vals : List (Option Int)} (hs : Small (2 ^ 53) vals) (pre : List (Option Int))
    (y : Option Int) (w post : List (Option Int)) (e : vals = pre ++ y :: w ++ post) :
    nanPop (nanAbs pre (y :: w)) y = nanAbs (pre ++ [y]) w := by
  subst e
  cases y with
  | none => rfl
  | some y =>
    have h2 : Small (2 ^ 53) ((pre ++ [some y]) ++ w ++ post) := by simpa using hs
    have h3 := small_mid h2
    have h4 : Small (2 ^ 53) (pre ++ [] ++ some y :: (w ++ post)) := by simpa using hs
    show (Val.num (rndTo .f64 ((validVals (some y :: w)).sum - rndTo .f64 y)),
      ((validVals (some y :: w)).length : Int) - 1) = _
    unfold nanAbs
    rw [validVals_some, List.sum_cons, exact_f64 y (small_one h4)]
    rw [show y + (validVals w).sum - y = (validVals w).sum by omega, exact_f64 _ h3]
    rw [List.length_cons]
    congr 1
    omega

/-- **C28** for rolling nansums of `double` columns: the sum of the valid values of the window; a NaN
does not matter. -/
theorem accumRollingNanSum_val_partial {keys : List Int} {src : List (Option Int)} {bins : Nat}
    {P : Packed} {w : Nat} (hG : Grouped keys bins P w) (hl : src.length = keys.length)
    (hs : ∀ b, 1 ≤ b → b < bins → Small (2 ^ 53) (groupVals keys src b)) :
    ∃ out, accumRolling nanSumRun .nan src P w 0 bins = some out ∧ out.length = keys.length ∧
      (∀ b k r, b < bins → (rowsOf keys b)[k]? = some r → out[r]? = some (some (if b = 0 then Val.nan else
        Val.num (validVals (window (groupVals keys src b) w k)).sum))) ∧
      ∀ r, r < keys.length → ∃ v, out[r]? = some (some v) :=
  accumRolling_run (R := nanSumRun) (abs := nanAbs) hG hl .nan fun b hb1 hb2 =>
    ⟨rfl, nanPush_eq (hs b hb1 hb2), nanPop_eq (hs b hb1 hb2)⟩

/-- **C59** for rolling nanmeans: the sum of the valid values of the window over their number, NaN if
there are none. -/
theorem accumRollingNanMean_partial {keys : List Int} {src : List (Option Int)} {bins : Nat}
    {P : Packed} {w : Nat} (hG : Grouped keys bins P w) (hl : src.length = keys.length)
    (hs : ∀ b, 1 ≤ b → b < bins → Small (2 ^ 53) (groupVals keys src b)) :
    ∃ out, accumRolling nanMeanRun .nan src P w 0 bins = some out ∧ out.length = keys.length ∧
      (∀ b k r, b < bins → (rowsOf keys b)[k]? = some r → out[r]? = some (some (if b = 0 then .nan else
        if validVals (window (groupVals keys src b) w k) = [] then .nan else
          .quot (validVals (window (groupVals keys src b) w k)).sum
            (validVals (window (groupVals keys src b) w k)).length))) ∧
      ∀ r, r < keys.length → ∃ v, out[r]? = some (some v) := by
  obtain ⟨out, h1, h2, h3, h4⟩ := accumRolling_run (R := nanMeanRun) (abs := nanAbs) hG hl .nan
    fun b hb1 hb2 => ⟨rfl, nanPush_eq (hs b hb1 hb2), nanPop_eq (hs b hb1 hb2)⟩
  refine ⟨out, h1, h2, fun b k r hb hk => ?_, h4⟩
  rw [h3 b k r hb hk]
  congr 2
  by_cases h0 : b = 0
  · rw [if_pos h0, if_pos h0]
  · rw [if_neg h0, if_neg h0]
    generalize window (groupVals keys src b) w k = l
    show (if 0 < ((validVals l).length : Int) then _ else _) = _
    cases hv : validVals l with
    | nil => rfl
    | cons a t =>
      rw [if_pos (by rw [List.length_cons]; omega), if_neg (by simp)]
      show Val.div (.num (validVals l).sum) (validVals l).length = _
      rw [hv]
      rfl

example : accumRolling nanMeanRun .nan [none, some 20, some 30, some 40] exPacked 2 0 3 =
    some [some .nan, some (.quot 20 1), some (.quot 30 1), some (.quot 70 2)] := by decide +kernel
/-- The hypotheses of the theorems on floating-point columns can be met. -/
example : Small (2 ^ 53) [none, some 20, some 30] := by unfold Small; decide

/-! ## Windows outside the guard -/

/-- A negative window: all rows outside bin 0 are left unwritten, so the output holds whatever was in
memory. -/
theorem accumRolling_negative :
    accumRolling (intRun .i64) 0 [10, 20, 30, 40] exPacked (-1) 0 3 =
      some [none, none, none, none] := by decide

/-- A window of 2^32 with int32 index arrays: the start of the second loop wraps to the start of the
group, and the value "leaving the window" is read 2^32 entries before the array. -/
theorem accumRolling_huge : accumRolling (intRun .i64) 0 [10, 20, 30, 40] exPacked (2 ^ 32) 0 3 = none := by
  decide

end Riptide.Rolling
