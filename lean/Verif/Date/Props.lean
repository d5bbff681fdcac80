import Verif.Date.Model
import Verif.Date.Spec
/-! # C87: the days since the epoch -/
namespace Riptide.Date
open Spec

theorem nanosPerDay_eq : nanosPerDay = dayNanos := by decide

/-- `YearToEpochNano` in days. -/
def days (y m d : Int) : Int :=
  (y - 1970) * 365 + (y - 1970 + 1) / 4 +
    ((if y % 4 = 0 then splitsLeap.getD (m - 1).toNat 0 else splits.getD (m - 1).toNat 0) + d - 1)

theorem epochNano_days {y m d : Int} (h : 1970 ≤ y ∧ y ≤ 2099 ∧ 1 ≤ m ∧ m ≤ 12 ∧ 1 ≤ d ∧ d ≤ 31) :
    epochNano y m d = days y m d * dayNanos := by
  unfold epochNano days; rw [if_pos h, nanosPerDay_eq]

theorem leap_range {y : Nat} (h1 : 1970 ≤ y) (h2 : y ≤ 2099) : leap y = true ↔ y % 4 = 0 := by
  unfold leap
  simp only [Bool.and_eq_true, Bool.or_eq_true, decide_eq_true_eq]
  omega

theorem month_cases {m : Nat} (h1 : 1 ≤ m) (h2 : m ≤ 12) :
    m = 1 ∨ m = 2 ∨ m = 3 ∨ m = 4 ∨ m = 5 ∨ m = 6 ∨ m = 7 ∨ m = 8 ∨ m = 9 ∨ m = 10 ∨ m = 11 ∨ m = 12 := by omega

theorem monthLen_le (y m : Nat) : 28 ≤ monthLen y m ∧ monthLen y m ≤ 31 := by
  unfold monthLen; repeat' split
  all_goals omega

/-- A valid date has at most 31 days. -/
theorem valid_range {a : D} (h : Valid a) (h1 : 1970 ≤ a.y) (h2 : a.y ≤ 2099) :
    1970 ≤ (a.y : Int) ∧ (a.y : Int) ≤ 2099 ∧ 1 ≤ (a.m : Int) ∧ (a.m : Int) ≤ 12 ∧ 1 ≤ (a.d : Int) ∧ (a.d : Int) ≤ 31 := by
  obtain ⟨a1, a2, a3, a4⟩ := h
  have := monthLen_le a.y a.m
  omega

/-- Days of the months in numbers. -/
theorem off_eq (y m : Nat) (h1 : 1 ≤ m) (h2 : m ≤ 12) (hy : 1970 ≤ y ∧ y ≤ 2099) :
    (if (y : Int) % 4 = 0 then splitsLeap.getD ((m : Int) - 1).toNat 0 else splits.getD ((m : Int) - 1).toNat 0) =
      ((List.range (m - 1)).map fun i => (monthLen y (i + 1) : Int)).sum := by
  have hl := leap_range hy.1 hy.2
  by_cases h : y % 4 = 0
  · rw [if_pos (by omega)]
    have ht := hl.2 h
    rcases month_cases h1 h2 with rfl | rfl | rfl | rfl | rfl | rfl | rfl | rfl | rfl | rfl | rfl | rfl <;>
      (simp only [monthLen, ht]; decide)
  · rw [if_neg (by omega)]
    have ht : leap y = false := by
      cases e : leap y
      · rfl
      · exact absurd (hl.1 e) h
    rcases month_cases h1 h2 with rfl | rfl | rfl | rfl | rfl | rfl | rfl | rfl | rfl | rfl | rfl | rfl <;>
      (simp only [monthLen, ht]; decide)

/-- The days before a month of a year. -/
def before (y m : Nat) : Int := ((List.range (m - 1)).map fun i => (monthLen y (i + 1) : Int)).sum

theorem before_succ (y m : Nat) (h : 1 ≤ m) : before y (m + 1) = before y m + monthLen y m := by
  obtain ⟨k, rfl⟩ := Nat.exists_eq_add_of_le h
  unfold before
  have : 1 + k + 1 - 1 = (1 + k - 1) + 1 := by omega
  rw [this, List.range_succ, List.map_append, List.sum_append]
  simp [Nat.add_comm 1 k]

theorem before_le {y m n : Nat} (h1 : 1 ≤ m) (h : m < n) : before y m + monthLen y m ≤ before y n := by
  obtain ⟨k, rfl⟩ := Nat.exists_eq_add_of_lt h
  induction k with
  | zero => rw [before_succ y _ h1]; exact Int.le_refl _
  | succ k ih =>
    have := before_succ y (m + k + 1) (by omega)
    have e : m + (k + 1) + 1 = m + k + 1 + 1 := by omega
    rw [e, this]
    have := ih (by omega)
    omega

theorem before_year (y : Nat) (hy : 1970 ≤ y ∧ y ≤ 2099) : before y 13 = if y % 4 = 0 then 366 else 365 := by
  have hl := leap_range hy.1 hy.2
  by_cases h : y % 4 = 0
  · rw [if_pos h]; have ht := hl.2 h; simp only [before, monthLen, ht]; decide
  · rw [if_neg h]
    have ht : leap y = false := by
      cases e : leap y
      · rfl
      · exact absurd (hl.1 e) h
    simp only [before, monthLen, ht]; decide

theorem days_eq {a : D} (h : Valid a) (hy : 1970 ≤ a.y ∧ a.y ≤ 2099) :
    days a.y a.m a.d = ((a.y : Int) - 1970) * 365 + ((a.y : Int) - 1970 + 1) / 4 + before a.y a.m + a.d - 1 := by
  unfold days before
  rw [off_eq a.y a.m h.1 h.2.1 hy]
  omega

theorem next_valid {a : D} (h : Valid a) : Valid (next a) := by
  obtain ⟨a1, a2, a3, a4⟩ := h
  have hm := monthLen_le
  unfold next Valid
  repeat' split
  · simp only; omega
  · have := hm a.y (a.m + 1); simp only; omega
  · have := hm (a.y + 1) 1; simp only; omega

/-- The next day has the next number. -/
theorem days_next {a : D} (h : Valid a) (hy : 1970 ≤ a.y ∧ a.y ≤ 2099) (hn : (next a).y ≤ 2099) :
    days (next a).y (next a).m (next a).d = days a.y a.m a.d + 1 := by
  have hv := next_valid h
  have hge : 1970 ≤ (next a).y := by unfold next; repeat' split
                                     all_goals simp only; omega
  rw [days_eq h hy, days_eq hv ⟨hge, hn⟩]
  obtain ⟨a1, a2, a3, a4⟩ := h
  unfold next
  by_cases c1 : a.d < monthLen a.y a.m
  · rw [if_pos c1]; simp only; omega
  · rw [if_neg c1]
    by_cases c2 : a.m < 12
    · rw [if_pos c2]; simp only
      have := before_succ a.y a.m a1
      omega
    · rw [if_neg c2]; simp only
      have hm : a.m = 12 := by omega
      have h1 := before_succ a.y 12 (by omega)
      rw [before_year a.y hy] at h1
      have h2 : before (a.y + 1) 1 = 0 := rfl
      rw [hm] at a4 c1
      rw [h2, hm]
      have : (((a.y + 1 : Nat)) : Int) = (a.y : Int) + 1 := by omega
      rw [this]
      split at h1 <;> omega

/-- Each year begins after the last day of the year before. -/
theorem days_year {a b : D} (ha : Valid a) (hb : Valid b) (hya : 1970 ≤ a.y ∧ a.y ≤ 2099) (hyb : 1970 ≤ b.y ∧ b.y ≤ 2099)
    (h : a.y < b.y) : days a.y a.m a.d < days b.y b.m b.d := by
  rw [days_eq ha hya, days_eq hb hyb]
  obtain ⟨a1, a2, a3, a4⟩ := ha
  have h1 := before_le (y := a.y) a1 (show a.m < 13 by omega)
  rw [before_year a.y hya] at h1
  have h2 : 0 ≤ before b.y b.m := by
    have : ∀ (l : List Nat) (f : Nat → Nat), 0 ≤ (l.map fun i => (f i : Int)).sum := by
      intro l f
      induction l with
      | nil => exact Int.le_refl _
      | cons x l ih => rw [List.map_cons, List.sum_cons]; omega
    exact this _ _
  have hd : 1 ≤ b.d := hb.2.2.1
  split at h1 <;> omega

/-- Later dates have higher numbers. -/
theorem days_lt {a b : D} (ha : Valid a) (hb : Valid b) (hya : 1970 ≤ a.y ∧ a.y ≤ 2099) (hyb : 1970 ≤ b.y ∧ b.y ≤ 2099)
    (h : a.y < b.y ∨ (a.y = b.y ∧ (a.m < b.m ∨ (a.m = b.m ∧ a.d < b.d)))) : days a.y a.m a.d < days b.y b.m b.d := by
  rcases h with h | ⟨h, h2 | ⟨h2, h3⟩⟩
  · exact days_year ha hb hya hyb h
  · rw [days_eq ha hya, days_eq hb hyb]
    have := before_le (y := a.y) ha.1 h2
    have a4 := ha.2.2.2
    have hd : 1 ≤ b.d := hb.2.2.1
    rw [← h]
    omega
  · rw [days_eq ha hya, days_eq hb hyb, ← h, ← h2]; omega

/-- **C87**, later dates have later times. -/
theorem epochNano_lt {a b : D} (ha : Valid a) (hb : Valid b) (hya : 1970 ≤ a.y ∧ a.y ≤ 2099) (hyb : 1970 ≤ b.y ∧ b.y ≤ 2099)
    (h : a.y < b.y ∨ (a.y = b.y ∧ (a.m < b.m ∨ (a.m = b.m ∧ a.d < b.d)))) :
    epochNano a.y a.m a.d < epochNano b.y b.m b.d := by
  rw [epochNano_days (valid_range ha hya.1 hya.2), epochNano_days (valid_range hb hyb.1 hyb.2)]
  have := days_lt ha hb hya hyb h
  unfold dayNanos
  omega

theorem days_inj {a b : D} (ha : Valid a) (hb : Valid b) (hya : 1970 ≤ a.y ∧ a.y ≤ 2099) (hyb : 1970 ≤ b.y ∧ b.y ≤ 2099)
    (h : days a.y a.m a.d = days b.y b.m b.d) : a = b := by
  rcases a with ⟨y, m, d⟩
  rcases b with ⟨y', m', d'⟩
  have h1 := days_lt ha hb hya hyb
  have h2 := days_lt hb ha hyb hya
  simp only at *
  have e1 : y = y' := by omega
  have e2 : m = m' := by omega
  have e3 : d = d' := by omega
  rw [e1, e2, e3]

theorem last_day : days 2099 12 31 = 47481 := by decide

theorem dateOf_days (n : Nat) (h : n ≤ 47481) :
    Valid (dateOf n) ∧ 1970 ≤ (dateOf n).y ∧ (dateOf n).y ≤ 2099 ∧ days (dateOf n).y (dateOf n).m (dateOf n).d = n := by
  induction n with
  | zero => exact ⟨by decide, by decide, by decide, by decide⟩
  | succ n ih =>
    obtain ⟨v, l, u, e⟩ := ih (by omega)
    have hv := next_valid v
    have hl : 1970 ≤ (next (dateOf n)).y := by unfold next; repeat' split
                                               all_goals simp only; omega
    have hu : (next (dateOf n)).y ≤ 2099 := by
      have hm : ∀ y, monthLen y 12 = 31 := fun _ => rfl
      have hlast : ¬ dateOf n = ⟨2099, 12, 31⟩ := by
        intro c
        have e0 : days (2099 : Nat) (12 : Nat) (31 : Nat) = 47481 := last_day
        rw [c] at e
        have := e0.symm.trans e
        omega
      rcases hd : dateOf n with ⟨y, m, d⟩
      rw [hd] at v u hlast
      obtain ⟨a1, a2, a3, a4⟩ := v
      unfold next
      simp only at *
      by_cases c1 : d < monthLen y m
      · rw [if_pos c1]; exact u
      · rw [if_neg c1]
        by_cases c2 : m < 12
        · rw [if_pos c2]; exact u
        · rw [if_neg c2]; simp only
          have e1 : m = 12 := by omega
          subst e1
          rw [hm] at c1 a4
          by_cases e2 : y = 2099
          · subst e2
            have e3 : d = 31 := by omega
            exact absurd (by rw [e3]) hlast
          · omega
    refine ⟨hv, hl, hu, ?_⟩
    show days (next (dateOf n)).y (next (dateOf n)).m (next (dateOf n)).d = _
    rw [days_next v ⟨l, u⟩ hu, e]
    omega

/-- **C87**: `n` days after 1970-01-01, up to the end of 2099, the result is `n` days in nanoseconds. -/
theorem epochNano_dateOf (n : Nat) (h : n ≤ 47481) :
    epochNano (dateOf n).y (dateOf n).m (dateOf n).d = n * dayNanos := by
  obtain ⟨v, l, u, e⟩ := dateOf_days n h
  rw [epochNano_days (valid_range v l u), e]

/-- **C87**, the other way round: each date of these years is one of them. -/
theorem dateOf_all {a : D} (h : Valid a) (hy : 1970 ≤ a.y ∧ a.y ≤ 2099) : ∃ n, n ≤ 47481 ∧ dateOf n = a := by
  have hlo : 0 ≤ days a.y a.m a.d := by
    by_cases e : a = ⟨1970, 1, 1⟩
    · rw [e]; decide
    · have := days_lt (a := ⟨1970, 1, 1⟩) (b := a) (by decide) h (by decide) hy (by
        rcases a with ⟨y, m, d⟩
        obtain ⟨a1, a2, a3, a4⟩ := h
        simp only at *
        by_cases c : 1970 < y
        · exact .inl c
        · refine .inr ⟨by omega, ?_⟩
          by_cases c2 : 1 < m
          · exact .inl c2
          · refine .inr ⟨by omega, ?_⟩
            by_cases c3 : 1 < d
            · exact c3
            · exact absurd (by congr <;> omega) e)
      have e0 : days (1970 : Nat) (1 : Nat) (1 : Nat) = 0 := by decide
      simp only at this
      omega
  have hhi : days a.y a.m a.d ≤ 47481 := by
    by_cases e : a = ⟨2099, 12, 31⟩
    · rw [e]; decide
    · have := days_lt (a := a) (b := ⟨2099, 12, 31⟩) h (by decide) hy (by decide) (by
        rcases a with ⟨y, m, d⟩
        obtain ⟨a1, a2, a3, a4⟩ := h
        have hm := monthLen_le y m
        simp only at *
        by_cases c : y < 2099
        · exact .inl c
        · refine .inr ⟨by omega, ?_⟩
          by_cases c2 : m < 12
          · exact .inl c2
          · refine .inr ⟨by omega, ?_⟩
            by_cases c3 : d < 31
            · exact c3
            · exact absurd (by congr <;> omega) e)
      have e0 : days (2099 : Nat) (12 : Nat) (31 : Nat) = 47481 := by decide
      simp only at this
      omega
  refine ⟨(days a.y a.m a.d).toNat, by omega, ?_⟩
  obtain ⟨v, l, u, e⟩ := dateOf_days (days a.y a.m a.d).toNat (by omega)
  exact days_inj v h ⟨l, u⟩ hy (by rw [e]; omega)

/-- 2024-02-29 is 19782 days after the epoch. -/
example : epochNano 2024 2 29 = 19782 * dayNanos ∧ Valid ⟨2024, 2, 29⟩ ∧ dateOf 59 = ⟨1970, 3, 1⟩ := by decide +kernel

/-- **C87** fails for days past the end of their month: 2021-02-31 is taken as 2021-03-03. -/
theorem epochNano_past_month : epochNano 2021 2 31 = epochNano 2021 3 3 ∧ ¬ Valid ⟨2021, 2, 31⟩ := by decide

/-- **C87**: nothing but the sentinel outside of these years. -/
theorem epochNano_outside (y m d : Int) (h : ¬ (1970 ≤ y ∧ y ≤ 2099 ∧ 1 ≤ m ∧ m ≤ 12 ∧ 1 ≤ d ∧ d ≤ 31)) :
    epochNano y m d = -1 := by unfold epochNano; rw [if_neg h]

theorem splits_range (m : Int) : 0 ≤ splits.getD (m - 1).toNat 0 ∧ splits.getD (m - 1).toNat 0 ≤ 335 ∧
    0 ≤ splitsLeap.getD (m - 1).toNat 0 ∧ splitsLeap.getD (m - 1).toNat 0 ≤ 335 := by
  generalize (m - 1).toNat = k
  have h : ∀ l : List Int, (∀ x ∈ l, 0 ≤ x ∧ x ≤ 335) → 0 ≤ l.getD k 0 ∧ l.getD k 0 ≤ 335 := by
    intro l hl
    rw [List.getD_eq_getElem?_getD]
    cases e : l[k]? with
    | none => simp
    | some x => exact hl x (List.mem_of_getElem? e)
  have h1 := h splits (by decide)
  have h2 := h splitsLeap (by decide)
  exact ⟨h1.1, h1.2, h2.1, h2.2⟩

/-- **C87**: no value overflows. -/
theorem epochNano_range (y m d : Int) : -1 ≤ epochNano y m d ∧ epochNano y m d ≤ 47512 * dayNanos := by
  by_cases h : 1970 ≤ y ∧ y ≤ 2099 ∧ 1 ≤ m ∧ m ≤ 12 ∧ 1 ≤ d ∧ d ≤ 31
  · rw [epochNano_days h]
    have hs := splits_range m
    have : 0 ≤ days y m d ∧ days y m d ≤ 47512 := by unfold days; split <;> omega
    unfold dayNanos
    omega
  · rw [epochNano_outside y m d h]; decide

end Riptide.Date
