import Verif.Reduce.SumLemmas
/-! # Theorems about sum and mean reductions -/
namespace Riptide.Reduce
open Riptide.Work

theorem isum_eq_sum : ∀ l : List Int, isum l = l.sum
  | [] => rfl
  | x :: xs => by simp [isum, isum_eq_sum xs]

theorem absSum_eq_sum : ∀ l : List Int, absSum l = (l.map Int.natAbs).sum
  | [] => rfl
  | x :: xs => by simp [absSum, absSum_eq_sum xs]

/-- The Python integer standing for an invalid sum of type `t`. -/
def invalidSum (t : IT) : Int := if t = .u64 then IT.u64.inv else IT.i64.inv

theorem intBlock_ok (junk : Int) (t : IT) : SBlockOK true (fun x => [inum t x]) (intBlock junk t) := by
  unfold intBlock
  split
  · rename_i h; subst h; exact i32Block_ok junk
  · exact slowBlock_ok junk t

theorem sumReturn_ok {t : IT} {a : SAcc} {V : List Dbl} (h : SOK true a V) :
    (none ∈ V → sumReturn t a = .int (invalidSum t)) := by
  intro hb
  obtain ⟨h1, h2⟩ := h.bad hb
  unfold sumReturn invalidSum
  rw [h1, h2 rfl]
  by_cases e1 : t = .i64
  · subst e1; rfl
  · by_cases e2 : t = .u64
    · subst e2; rfl
    · simp [e1, e2]

theorem sumReturn_val {t : IT} {str} {a : SAcc} {V : List Dbl} (h : SOK str a V) (hb : none ∉ V)
    (hs : absSum (nums V) < 2 ^ 53) (hu : t.signed = false → 0 ≤ isum (nums V)) :
    sumReturn t a = .int (isum (nums V)) := by
  obtain ⟨h1, h2⟩ := h.ok hb hs
  have ha := isum_abs (nums V)
  unfold sumReturn
  rw [h1, h2]
  obtain ⟨_, i2, _⟩ := i64_small (n := isum (nums V)) (by omega)
  simp only
  by_cases e1 : t = .i64
  · rw [if_pos e1, if_neg]
    simp only [decide_eq_true_eq]; omega
  · rw [if_neg e1]
    by_cases e2 : t = .u64
    · rw [if_pos e2, if_neg, if_neg i2]
      · have := hu (by rw [e2]; rfl)
        rw [IT.wrap_of_inRange _ (by decide)]
        simp only [IT.InRange, IT.lo, IT.hi, IT.u64]
        simp
        omega
      · simp only [decide_eq_true_eq]; omega
    · rw [if_neg e2]

theorem isum_nonneg : ∀ {l : List Int}, (∀ x ∈ l, 0 ≤ x) → 0 ≤ isum l
  | [], _ => by simp [isum]
  | x :: xs, h => by
    have := isum_nonneg (l := xs) (fun y hy => h y (by simp [hy]))
    have := h x (by simp)
    simp only [isum]; omega

/-- C49 (partial: the sum of absolute values is below `2^53`, because integers are accumulated in
doubles; see `sum_int64_inexact`).  The sum of an integer array is exact, or invalid if an element is
invalid, for every distribution of the work over the cores. -/
theorem sum_int_partial (junk : Int) (t : IT) (xs : List Int) (hx : ∀ x ∈ xs, t.InRange x)
    (workers : Nat) (nt : Bool) (par : Option (List (List Nat)))
    (h : CoreSched workers xs.length nt par) :
    (t.inv ∈ xs → reduceSumInt junk t xs par = .int (invalidSum t)) ∧
    (t.inv ∉ xs → (xs.map Int.natAbs).sum < 2 ^ 53 → reduceSumInt junk t xs par = .int xs.sum) := by
  have hs := sumScatter_spec (intBlock_ok junk t) h
  refine ⟨fun hb => sumReturn_ok hs (inum_mem.2 hb), fun hb hsum => ?_⟩
  have := sumReturn_val (t := t) hs (fun hc => hb (inum_mem.1 hc))
  rw [inum_nums hb, absSum_eq_sum, isum_eq_sum] at this
  refine this hsum fun hu => ?_
  rw [← isum_eq_sum]
  apply isum_nonneg
  intro x hm
  have := (hx x hm).1
  simpa [IT.lo, hu] using this

/-- C49: arrays of 8, 16 and 32-bit integers with at most `2^53 / 2^bits` elements are always summed
exactly. -/
theorem sum_small_ints (junk : Int) (t : IT) (hbits : 0 < t.bits) (xs : List Int)
    (hx : ∀ x ∈ xs, t.InRange x) (hlen : xs.length * 2 ^ t.bits ≤ 2 ^ 53)
    (workers : Nat) (nt : Bool) (par : Option (List (List Nat)))
    (h : CoreSched workers xs.length nt par) :
    reduceSumInt junk t xs par = .int (if t.inv ∈ xs then invalidSum t else xs.sum) := by
  obtain ⟨h1, h2⟩ := sum_int_partial junk t xs hx workers nt par h
  split
  · exact h1 ‹_›
  · refine h2 ‹_› ?_
    have hb : ∀ x ∈ xs, x.natAbs + 1 ≤ 2 ^ t.bits := by
      intro x hm
      have hr := hx x hm
      unfold IT.InRange at hr
      rw [IT.hi_eq t hbits] at hr
      have hp : ((2 ^ t.bits : Nat) : Int) = (2 : Int) ^ t.bits := by simp
      have hlo : -(2 : Int) ^ t.bits < t.lo ∧ t.lo ≤ 0 := by
        obtain ⟨k, hk⟩ : ∃ k, t.bits = k + 1 := ⟨t.bits - 1, by omega⟩
        have := IT.pow_pos k
        unfold IT.lo
        rw [hk]
        simp only [Nat.add_sub_cancel, Int.pow_succ]
        split <;> omega
      omega
    have : ∀ l : List Int, (∀ x ∈ l, x.natAbs + 1 ≤ 2 ^ t.bits) →
        (l.map Int.natAbs).sum + l.length ≤ l.length * 2 ^ t.bits := by
      intro l
      induction l with
      | nil => simp
      | cons x l ih =>
        intro hl
        have h1 := hl x (by simp)
        have h2 := ih (fun y hy => hl y (by simp [hy]))
        simp only [List.map_cons, List.sum_cons, List.length_cons, Nat.add_mul, Nat.one_mul]
        omega
    have := this xs hb
    cases xs with
    | nil => simp
    | cons x l => simp only [List.length_cons] at this hlen ⊢; omega

/-- C49 does not hold without the bound: `2^53 + 1` is not the sum returned for `[2^53, 1]`. -/
theorem sum_int64_inexact (junk : Int) :
    reduceSumInt junk .i64 [2 ^ 53, 1] none = .int (2 ^ 53) ∧ ([2 ^ 53, 1] : List Int).sum ≠ 2 ^ 53 := by
  constructor
  · have h1 : slowLoop IT.i64.inv 0 [2 ^ 53, 1] = some (2 ^ 53) := by decide +kernel
    have h2 : addD (some 0) (some (2 ^ 53)) = some (2 ^ 53) := by decide +kernel
    have h3 : (intBlock junk .i64) = slowBlock junk .i64 := rfl
    unfold reduceSumInt sumScatter
    simp only [h3, slowBlock, h1, SAcc.zero, h2, rcastI64, castI64]
    rw [if_pos (by decide)]
    rfl
  · decide

example : CoreSched 4 3 false none := .direct (by decide)
example : reduceSumInt 0 .i8 [100, 100, 27] none = .int 227 := by decide +kernel
example : reduceSumInt 0 .i32 ((List.range 40).map fun n => ((n : Nat) : Int)) none = .int 780 := by
  decide +kernel

/-- C49, `nansum` (same guard): the sum of the valid elements. -/
theorem nansum_int_partial (junk : Int) (t : IT) (xs : List Int) (hx : ∀ x ∈ xs, t.InRange x)
    (workers : Nat) (nt : Bool) (par : Option (List (List Nat)))
    (h : CoreSched workers xs.length nt par)
    (hsum : ((xs.filter (· ≠ t.inv)).map Int.natAbs).sum < 2 ^ 53) :
    reduceNanSumInt junk t xs par = .int (xs.filter (· ≠ t.inv)).sum := by
  have hs := sumScatter_spec (nanSumBlock_ok junk fun x => if x = t.inv then none else some x) h
  rw [flatMap_toList] at hs
  have e : xs.filterMap (fun x => if x = t.inv then none else some x) = xs.filter (· ≠ t.inv) := by
    clear hs h hx hsum
    induction xs with
    | nil => rfl
    | cons x xs ih =>
      rw [List.filterMap_cons, ih]
      by_cases hx : x = t.inv <;> simp [hx]
  rw [e] at hs
  have := sumReturn_val (t := t) hs (by simp)
  rw [nums_map_some, absSum_eq_sum, isum_eq_sum] at this
  refine this hsum fun hu => ?_
  rw [← isum_eq_sum]
  apply isum_nonneg
  intro x hm
  have := (hx x (List.mem_filter.1 hm).1).1
  simpa [IT.lo, hu] using this

/-- C49, floats holding integers (same guard): NaN exactly when an element is NaN, else exact. -/
theorem sum_flt_partial (junk : Int) (xs : List Dbl) (workers : Nat) (nt : Bool)
    (par : Option (List (List Nat))) (h : CoreSched workers xs.length nt par) :
    (none ∈ xs → reduceSumFlt junk xs par = none) ∧
    (∀ ns : List Int, xs = ns.map some → (ns.map Int.natAbs).sum < 2 ^ 53 →
      reduceSumFlt junk xs par = some ns.sum) := by
  have hs := sumScatter_spec (fltBlock_ok junk) h
  have e0 : xs.flatMap (fun x => [x]) = xs := by
    clear hs h
    induction xs with
    | nil => rfl
    | cons x xs ih => simp [List.flatMap_cons, ih]
  rw [e0] at hs
  refine ⟨fun hb => (hs.bad hb).1, ?_⟩
  rintro ns rfl hsum
  have := (hs.ok (by simp) (by rw [nums_map_some, absSum_eq_sum]; exact hsum)).1
  rw [nums_map_some, isum_eq_sum] at this
  exact this

example : reduceSumFlt 0 [some 3, none, some 4] none = none := by decide +kernel
example : reduceSumFlt 0 [some 3, some (-5)] none = some (-2) := by decide +kernel

/-- C50: the mean of an integer array divides the exact sum by the number of elements (same guard as
C49); NaN if an element is invalid. -/
theorem mean_int_partial (junk : Int) (t : IT) (xs : List Int) (hne : xs ≠ [])
    (workers : Nat) (nt : Bool) (par : Option (List (List Nat)))
    (h : CoreSched workers xs.length nt par) :
    (t.inv ∈ xs → (meanOf (sumScatter (intBlock junk t) xs par)).1 = none) ∧
    (t.inv ∉ xs → (xs.map Int.natAbs).sum < 2 ^ 53 →
      meanOf (sumScatter (intBlock junk t) xs par) = (some xs.sum, xs.length)) := by
  have hs := sumScatter_spec (intBlock_ok junk t) h
  have hl : (sumScatter (intBlock junk t) xs par).lenOut = xs.length := by rw [hs.len, inum_len]
  have hpos : 0 < xs.length := List.length_pos_iff.2 hne
  unfold meanOf
  rw [if_pos (by omega), hl]
  refine ⟨fun hb => (hs.bad (inum_mem.2 hb)).1, fun hb hsum => ?_⟩
  have := hs.ok (fun hc => hb (inum_mem.1 hc)) (by rw [inum_nums hb, absSum_eq_sum]; exact hsum)
  rw [inum_nums hb, isum_eq_sum] at this
  rw [this.1]

/-- C50: `nanmean` divides the sum of the valid elements by their number … -/
theorem nanmean_int_partial (junk : Int) (t : IT) (xs : List Int) (hne : ∃ x ∈ xs, x ≠ t.inv)
    (workers : Nat) (nt : Bool) (par : Option (List (List Nat)))
    (h : CoreSched workers xs.length nt par)
    (hsum : ((xs.filter (· ≠ t.inv)).map Int.natAbs).sum < 2 ^ 53) :
    meanOf (sumScatter (nanSumBlock junk fun x => if x = t.inv then none else some x) xs par) =
      (some (xs.filter (· ≠ t.inv)).sum, (xs.filter (· ≠ t.inv)).length) := by
  have hs := sumScatter_spec (nanSumBlock_ok junk fun x => if x = t.inv then none else some x) h
  rw [flatMap_toList] at hs
  have e : xs.filterMap (fun x => if x = t.inv then none else some x) = xs.filter (· ≠ t.inv) := by
    clear hs h hsum hne
    induction xs with
    | nil => rfl
    | cons x xs ih =>
      rw [List.filterMap_cons, ih]
      by_cases hx : x = t.inv <;> simp [hx]
  rw [e] at hs
  have hl := hs.len
  rw [List.length_map] at hl
  have := (hs.ok (by simp) (by rw [nums_map_some, absSum_eq_sum]; exact hsum)).1
  rw [nums_map_some, isum_eq_sum] at this
  obtain ⟨x, hx, hxv⟩ := hne
  have hpos : 0 < (xs.filter (· ≠ t.inv)).length :=
    List.length_pos_iff.2 (List.ne_nil_of_mem (List.mem_filter.2 ⟨hx, by simpa using hxv⟩))
  unfold meanOf
  rw [if_pos (by omega), this, hl]

/-- … but it returns 0, not NaN, when no element is valid. -/
theorem nanmean_of_nothing_is_zero (junk : Int) :
    meanOf (sumScatter (nanSumBlock junk fun x => if x = IT.i8.inv then none else some x)
      [-128, -128] none) = (some 0, 1) := by
  rfl

end Riptide.Reduce
