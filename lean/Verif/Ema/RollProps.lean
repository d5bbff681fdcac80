import Verif.Ema.Roll
/-! Rolling sums and means over a whole array (C72). -/
namespace Riptide.Ema
open Rolling (Run rdS upTo store Keeps)
open Rolling.Spec (window Small sumAt stickyAt)
open GroupBy (Val rndTo Exact)
open GroupBy.Spec (validVals)

variable {S T U : Type}

theorem upTo_nat (a n : Nat) : upTo (a : Int) ((a + n : Nat) : Int) =
    (List.range' a n).map fun (k : Nat) => (k : Int) := by
  unfold upTo
  rw [show (((a + n : Nat) : Int) - (a : Int)).toNat = n by omega, List.range'_eq_map_range,
    List.map_map]
  refine List.map_congr_left fun k _ => ?_
  simp

theorem flatLoop_run (g : S → Int → Option (S × U)) (Inv : Nat → S → Prop) (val : Nat → U) (n lo : Nat)
    (s : S) (ws : List (Int × U)) (h0 : Inv lo s)
    (hs : ∀ i s, lo ≤ i → i < lo + n → Inv i s →
      ∃ s', g s (i : Int) = some (s', val i) ∧ Inv (i + 1) s') :
    ∃ s', flatLoop g (upTo (lo : Int) ((lo + n : Nat) : Int)) (s, ws) =
        some (s', ws ++ (List.range' lo n).map fun (k : Nat) => ((k : Int), val k)) ∧ Inv (lo + n) s' := by
  rw [upTo_nat]
  induction n generalizing lo s ws with
  | zero => exact ⟨s, by simp [flatLoop], h0⟩
  | succ n ih =>
    obtain ⟨s1, h1, h2⟩ := hs lo s (Nat.le_refl lo) (by omega) h0
    obtain ⟨s2, h3, h4⟩ := ih (lo + 1) s1 (ws ++ [((lo : Int), val lo)]) h2
      fun i s hi1 hi2 => hs i s (by omega) (by omega)
    refine ⟨s2, ?_, by rw [show lo + (n + 1) = lo + 1 + n by omega]; exact h4⟩
    rw [List.range'_succ, List.map_cons, List.map_cons]
    unfold flatLoop at h3 ⊢
    rw [List.foldlM_cons, h1]
    show List.foldlM _ (s1, ws ++ [((lo : Int), val lo)]) _ = _
    rw [h3, List.append_assoc]
    rfl

theorem rdS_nat (src : List T) (i : Nat) : rdS src (i : Int) = src[i]? := by
  unfold rdS
  rw [if_pos (by omega)]
  rfl

/-- Storing one value at every position. -/
theorem store_all (n : Nat) (val : Nat → U) :
    store n ((List.range n).map fun (k : Nat) => ((k : Int), val k)) =
      some ((List.range n).map fun k => some (val k)) := by
  unfold store
  rw [if_pos (by simp), List.map_map,
    show ((fun w : Int × U => (w.1.toNat, w.2)) ∘ fun (k : Nat) => ((k : Int), val k)) =
      fun (k : Nat) => (k, val k) by funext k; simp,
    runWrites_eq val (by simp) (by simp)]
  congr 1
  refine List.map_congr_left fun k hk => ?_
  rw [if_pos (by simpa using hk)]

/-- Any of the four functions with a window that is not negative. -/
theorem rollFlat_run {R : Run T S U} {abs : List T → List T → S} {src : List T} (w : Nat)
    (hK : Keeps R src abs) :
    rollFlat R src w = some ((List.range src.length).map fun k =>
      some (R.emit (abs (src.take (k + 1 - w)) (window src w k)) ((min (k + 1) w : Nat) : Int))) := by
  let Inv : Nat → S → Prop := fun i s => s = abs (src.take (i - w)) ((src.take i).drop (i - w))
  let val : Nat → U := fun k =>
    R.emit (abs (src.take (k + 1 - w)) (window src w k)) ((min (k + 1) w : Nat) : Int)
  have hget : ∀ i, i < src.length → ∃ x post, src[i]? = some x ∧
      src = src.take (i - w) ++ (src.take i).drop (i - w) ++ x :: post := by
    intro i hi
    refine ⟨src[i], src.drop (i + 1), List.getElem?_eq_getElem hi, ?_⟩
    have h1 : src.take (i - w) = (src.take i).take (i - w) := by
      rw [List.take_take, Nat.min_eq_left (by omega)]
    rw [h1, List.take_append_drop, ← List.drop_eq_getElem_cons, List.take_append_drop]
  obtain ⟨s1, e1, i1⟩ := flatLoop_run (flatPrime R src) Inv val (min src.length w) 0 R.zero [] (by
      show R.zero = _
      simpa using hK.zero) (by
    intro i s _ hi hs
    obtain ⟨x, post, hx, he⟩ := hget i (by omega)
    obtain ⟨hw1, hw2⟩ := Rolling.window_prime (w := w) (by omega) hx
    have hnew : R.push s x = abs (src.take (i + 1 - w)) (window src w i) := by
      rw [show s = _ from hs, hK.push _ _ _ _ he, hw2, hw1, show i - w = 0 by omega, List.take_zero]
    refine ⟨R.push s x, ?_, hnew⟩
    unfold flatPrime
    rw [rdS_nat, hx, Option.map_some, hnew]
    show some (_, R.emit _ ((i : Int) + 1)) = some (_, R.emit _ _)
    rw [show ((min (i + 1) w : Nat) : Int) = (i : Int) + 1 by omega])
  rw [Nat.zero_add] at e1 i1
  obtain ⟨s2, e2, _⟩ := flatLoop_run (flatSlide R src w) Inv val (src.length - w) w s1
      ((List.range' 0 (min src.length w)).map fun (k : Nat) => ((k : Int), val k)) (by
    by_cases hlt : w ≤ src.length
    · rw [Nat.min_eq_right hlt] at i1; exact i1
    · rw [Nat.min_eq_left (by omega)] at i1
      show s1 = _
      rw [show s1 = _ from i1, List.take_of_length_le (Nat.le_refl src.length),
        List.take_of_length_le (show src.length ≤ w by omega), show src.length - w = w - w by omega]) (by
    intro i s h1 hi hs
    obtain ⟨x, post, hx, he⟩ := hget i (by omega)
    obtain ⟨y, hy, hw1, hw2⟩ := Rolling.window_slide (w := w) h1 hx
    have hp : R.push s x = abs (src.take (i - w)) (y :: window src w i) := by
      rw [show s = _ from hs, hK.push _ _ _ _ he, hw1]
    have he2 : src = src.take (i - w) ++ y :: window src w i ++ post := by
      rw [← hw1]
      simpa using he
    have hnew : R.pop (R.push s x) y = abs (src.take (i + 1 - w)) (window src w i) := by
      rw [hp, hK.pop _ _ _ _ he2, hw2]
    refine ⟨R.pop (R.push s x) y, ?_, hnew⟩
    unfold flatSlide
    rw [rdS_nat, hx, Option.bind_some, show ((i : Int) - (w : Int)) = ((i - w : Nat) : Int) by omega,
      rdS_nat, hy, Option.map_some, hnew]
    show some (_, R.emit _ (w : Int)) = some (_, R.emit _ _)
    rw [show ((min (i + 1) w : Nat) : Int) = (w : Int) by omega])
  unfold rollFlat
  rw [show (min (src.length : Int) (w : Int)) = ((min src.length w : Nat) : Int) by omega,
    show (0 : Int) = ((0 : Nat) : Int) from rfl, e1, Option.bind_some]
  have hend : upTo (w : Int) (src.length : Int) = upTo (w : Int) ((w + (src.length - w) : Nat) : Int) := by
    by_cases hlt : w ≤ src.length
    · rw [show w + (src.length - w) = src.length by omega]
    · unfold upTo
      rw [show ((src.length : Int) - (w : Int)).toNat = 0 by omega,
        show (((w + (src.length - w) : Nat) : Int) - (w : Int)).toNat = 0 by omega]
  rw [hend, List.nil_append, e2, Option.bind_some]
  have hcat : List.range' 0 (min src.length w) ++ List.range' w (src.length - w) =
      List.range src.length := by
    rw [List.range_eq_range']
    by_cases hlt : w ≤ src.length
    · rw [Nat.min_eq_right hlt]
      have := List.range'_append_1 (s := 0) (m := w) (n := src.length - w)
      rw [Nat.zero_add] at this
      rw [this, show w + (src.length - w) = src.length by omega]
    · rw [Nat.min_eq_left (by omega), show src.length - w = 0 by omega]
      simp
  rw [← List.map_append, hcat]
  exact store_all src.length val

/-- C72: rolling sums of an integer column, modulo `2^64`. -/
theorem rollSum_spec_partial (src : List Int) (w : Nat) :
    rollSum src w = some ((List.range src.length).map fun k =>
      some (IT.i64.wrap (window src w k).sum)) :=
  rollFlat_run w (Rolling.intRun_keeps .i64 (by decide) src)

/-- C72: rolling sums of an integer column without its invalid values. -/
theorem rollNanSum_spec_partial (t : IT) (src : List Int) (w : Nat) :
    rollNanSum t src w = some ((List.range src.length).map fun k =>
      some (IT.i64.wrap ((window src w k).filter (· ≠ t.inv)).sum)) :=
  rollFlat_run w (Rolling.intNanRun_keeps t .i64 (by decide) src)

theorem sticky_at (vals : List (Option Int)) (w k : Nat) (g : Int → Val) (h : none ∉ vals) :
    stickyAt vals w k g = sumAt vals w k g := by
  unfold stickyAt sumAt
  rw [if_neg fun hm => h (List.mem_of_mem_take hm), if_neg fun hm => h (by
    unfold window at hm
    exact List.mem_of_mem_take (List.mem_of_mem_drop hm))]

/-- C72: rolling sums of a floating-point column whose values are integers and add up exactly.
Missing: after a NaN every later row is NaN (`rollSumFloat_sticky`), so the column must have none. -/
theorem rollSumFloat_partial {f : FT} {M : Nat} (hr : Exact (rndTo f) M) (src : List (Option Int)) (w : Nat)
    (hs : Small M src) (hn : none ∉ src) :
    rollSumFloat f src w = some ((List.range src.length).map fun k =>
      some (sumAt src w k Val.num)) := by
  unfold rollSumFloat
  rw [rollFlat_run w (Rolling.valRun_keeps hr hs)]
  congr 1
  refine List.map_congr_left fun k _ => ?_
  rw [← sticky_at src w k Val.num hn]
  show some (Rolling.stickySum _ _) = _
  unfold Rolling.stickySum stickyAt
  rw [Rolling.take_window]

/-- C72: rolling means.  Missing: as for the sums, and the window must not be empty. -/
theorem rollMean_partial (src : List (Option Int)) (w : Nat) (hw : 0 < w)
    (hs : Small (2 ^ 53) src) (hn : none ∉ src) :
    rollMean src w = some ((List.range src.length).map fun k =>
      some (Val.quot (validVals (window src w k)).sum (window src w k).length)) := by
  unfold rollMean
  rw [rollFlat_run w (Rolling.meanRun_keeps hs)]
  congr 1
  refine List.map_congr_left fun k hk => ?_
  have hk' : k < src.length := List.mem_range.1 hk
  have hlen : (window src w k).length = min (k + 1) w := by
    unfold window
    rw [List.length_drop, List.length_take]
    omega
  show some (Val.div (Rolling.stickySum _ _) _) = _
  unfold Rolling.stickySum
  rw [Rolling.take_window, if_neg fun hm => hn (List.mem_of_mem_take hm), hlen]
  rfl

/-- C72: rolling sums of a `double` column without its NaNs. -/
theorem rollNanSumFloat_partial (src : List (Option Int)) (w : Nat) (hs : Small (2 ^ 53) src) :
    rollNanSumFloat src w = some ((List.range src.length).map fun k =>
      some (Val.num (validVals (window src w k)).sum)) := by
  unfold rollNanSumFloat
  rw [rollFlat_run w (abs := Rolling.nanAbs) ⟨rfl, fun pre v x post e => Rolling.nanPush_eq hs pre v x post e,
    fun pre y v post e => Rolling.nanPop_eq hs pre y v post e⟩]
  rfl

/-- C72: rolling means of a `double` column without its NaNs: NaN where the window has no value. -/
theorem rollNanMean_partial (src : List (Option Int)) (w : Nat) (hs : Small (2 ^ 53) src) :
    rollNanMean src w = some ((List.range src.length).map fun k =>
      some (if validVals (window src w k) = [] then .nan else
        Val.quot (validVals (window src w k)).sum (validVals (window src w k)).length)) := by
  unfold rollNanMean
  rw [rollFlat_run w (abs := Rolling.nanAbs) ⟨rfl, fun pre v x post e => Rolling.nanPush_eq hs pre v x post e,
    fun pre y v post e => Rolling.nanPop_eq hs pre y v post e⟩]
  congr 1
  refine List.map_congr_left fun k _ => ?_
  show some (if ((validVals (window src w k)).length : Int) = 0 then Val.nan else _) = _
  by_cases h : validVals (window src w k) = []
  · rw [if_pos h, h]; rfl
  · rw [if_neg h, if_neg fun e => h (List.length_eq_zero_iff.1 (by omega))]
    rfl

/-- The hypotheses on floating-point columns can be met. -/
example : Small (2 ^ 53) [some 1, some 20, some 30] ∧ none ∉ [some (1 : Int), some 20, some 30] := by
  unfold Small; decide

example : rollSum [1, 2, 3, 4, 5] 2 = some [some 1, some 3, some 5, some 7, some 9] := by decide
example : rollNanSum .i8 [1, -128, 3, 4] 2 = some [some 1, some 1, some 3, some 7] := by decide

/-- A negative window reads before the array: `for (i = windowSize; …)` starts at `pIn[windowSize]`. -/
theorem rollSum_negative_window (src : List Int) (w : Int) (h : w < 0) : rollSum src w = none := by
  unfold rollSum rollFlat
  have h1 : upTo 0 (min (src.length : Int) w) = [] := by
    unfold upTo
    rw [show (min (src.length : Int) w - 0).toNat = 0 by omega]
    rfl
  have h2 : ∃ l, upTo w src.length = w :: l := by
    unfold upTo
    obtain ⟨n, hn⟩ : ∃ n, ((src.length : Int) - w).toNat = n + 1 := ⟨((src.length : Int) - w).toNat - 1, by omega⟩
    rw [hn, List.range_succ_eq_map, List.map_cons]
    exact ⟨_, by simp; rfl⟩
  obtain ⟨l, hl⟩ := h2
  rw [h1, hl]
  have h3 : rdS src w = none := by unfold rdS; rw [if_neg (by omega)]
  simp [flatLoop, flatSlide, h3]

/-- With window 1 a NaN makes all later sums NaN, although it has left the window. -/
theorem rollSumFloat_sticky :
    rollSumFloat .f64 [none, some 2, some 3] 1 = some [some .nan, some .nan, some .nan] ∧
      sumAt [none, some 2, some 3] 1 2 Val.num = .num 3 := by decide +kernel

/-- `RollingNanMean` counts the invalid values of an integer column: for an int8 column holding an
invalid value and 4 the mean of the valid values is 4, the function divides `-128 + 4` by 2. -/
theorem rollNanMeanInt_counts_invalid :
    rollNanMeanInt [IT.i8.inv, 4] 2 = some [some (.quot (-128) 1), some (.quot (-124) 2)] := by
  decide +kernel

/-- `RollingSum` of a uint64 column is an int64: the sum 2^63 comes out as -2^63. -/
theorem rollSum_uint64 :
    rollSum [9223372036854775808] 1 = some [some (-9223372036854775808)] := by decide

end Riptide.Ema
