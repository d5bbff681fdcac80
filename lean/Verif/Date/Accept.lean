import Verif.Date.ParseProps
/-! # C88: range, definedness, what is accepted without an error, arrays -/
namespace Riptide.Date
open Spec

/-! ## Range -/

theorem digitsLoop_range (k : Nat) (l : List Int) (n : Int) (h : 0 ≤ n) :
    0 ≤ (digitsLoop k l n).1 ∧ (digitsLoop k l n).2.2 ≤ k ∧
    (digitsLoop k l n).1 < (n + 1) * 10 ^ (digitsLoop k l n).2.2 := by
  induction k generalizing l n with
  | zero => rw [digitsLoop]; refine ⟨h, Nat.le_refl _, ?_⟩; simp only [Int.pow_zero]; omega
  | succ k ih =>
    cases l with
    | nil => rw [digitsLoop]; refine ⟨h, by simp, ?_⟩; simp only [Int.pow_zero]; omega
    | cons c r =>
      rw [digitsLoop]
      cases hc : isDigit c with
      | false =>
        simp only [Bool.false_eq_true, if_false]
        refine ⟨h, by simp, ?_⟩; simp only [Int.pow_zero]; omega
      | true =>
        simp only [if_true]
        unfold isDigit at hc
        simp only [Bool.and_eq_true, decide_eq_true_eq] at hc
        obtain ⟨i1, i2, i3⟩ := ih r (n * 10 + (c - 48)) (by omega)
        refine ⟨i1, by omega, Int.lt_of_lt_of_le i3 ?_⟩
        generalize (digitsLoop k r (n * 10 + (c - 48))).2.2 = j
        have e : (n + 1) * 10 ^ (j + 1) = (n * 10 + 10) * 10 ^ j := by rw [Int.pow_succ]; grind
        rw [e]
        exact Int.mul_le_mul_of_nonneg_right (by omega) (Int.pow_nonneg (by decide))

theorem pow_le (k j : Nat) (h : j ≤ k) : (10 : Int) ^ j ≤ 10 ^ k := by
  exact_mod_cast Nat.pow_le_pow_right (by decide) h

theorem parseNumber_range (k : Nat) (s : St) : 0 ≤ (parseNumber k s).1 ∧ (parseNumber k s).1 < 10 ^ k := by
  unfold parseNumber
  simp only
  have h := digitsLoop_range k (skipNon s.rest s.pos s.err).rest 0 (by decide)
  refine ⟨h.1, ?_⟩
  have := pow_le k _ h.2.1
  omega

theorem parseFraction_range (s : St) : 0 ≤ (parseFraction s).1 ∧ (parseFraction s).1 < 1000000000 := by
  unfold parseFraction
  cases s.rest with
  | nil => simp
  | cons c r =>
    simp only
    by_cases hc : c = 46
    · rw [if_pos hc]
      unfold parseDecimal
      simp only
      have h := digitsLoop_range 9 r 0 (by decide)
      rw [scale_eq _ _ h.2.1]
      generalize (digitsLoop 9 r 0).2.2 = j at *
      generalize (digitsLoop 9 r 0).1 = v at *
      have hp : (10 : Int) ^ j * 10 ^ (9 - j) = 1000000000 := by
        rw [← Int.pow_add, show j + (9 - j) = 9 by omega]; rfl
      have hq : (0 : Int) < 10 ^ (9 - j) := Int.pow_pos (by decide)
      refine ⟨Int.mul_nonneg h.1 (Int.le_of_lt hq), ?_⟩
      rw [← hp]
      exact Int.mul_lt_mul_of_pos_right (by omega) hq
    · rw [if_neg hc]; simp

theorem parseMs_range (s : St) (h : (parseMs s).1.2.2 = true) :
    0 ≤ (parseMs s).1.1 ∧ (parseMs s).1.1 < 60 ∧ 0 ≤ (parseMs s).1.2.1 ∧ (parseMs s).1.2.1 < 60 := by
  unfold parseMs at *
  simp only at *
  have h1 := parseNumber_range 2 s
  have h2 := parseNumber_range 2 (parseSingle 58 (parseNumber 2 s).2).2
  split
  · next hb =>
    rw [if_pos hb] at h
    simp only [Bool.and_eq_true, decide_eq_true_eq] at h ⊢
    omega
  · next hb =>
    rw [if_neg hb] at h
    simp only [decide_eq_true_eq] at h ⊢
    omega

theorem clock_range {h m s : Int} (h1 : 0 ≤ h ∧ h < 24) (h2 : 0 ≤ m ∧ m < 60) (h3 : 0 ≤ s ∧ s < 60) :
    0 ≤ clock h m s ∧ clock h m s + 1000000000 ≤ dayNanos := by unfold clock dayNanos; omega

/-- **C88**, range of times: a time of day, whatever the string. -/
theorem parseTime_range (item : List Int) (e : Err) (r : Int × Err) (h : parseTime item e = some r) :
    0 ≤ r.1 ∧ r.1 < dayNanos := by
  unfold parseTime at h
  obtain ⟨l, hl, h⟩ := Option.bind_eq_some_iff.1 h
  split at h
  · injection h with h; subst h; unfold dayNanos; simp only; omega
  · simp only at h
    split at h
    · obtain ⟨e', he, h⟩ := Option.map_eq_some_iff.1 h
      subst h
      simp only
      have hf := parseFraction_range (parseMs (parseSingle 58 (parseNumber 2 ⟨l.1, l.2, e⟩).2).2).2
      split
      · next hok =>
        simp only [Bool.and_eq_true, decide_eq_true_eq] at hok
        have hm := parseMs_range _ hok.2
        have := clock_range ⟨(parseNumber_range 2 ⟨l.1, l.2, e⟩).1, hok.1⟩ ⟨hm.1, hm.2.1⟩ hm.2.2
        omega
      · decide
    · obtain ⟨e', he, h⟩ := Option.map_eq_some_iff.1 h
      subst h
      unfold dayNanos; simp only; omega

/-- **C88**, range of dates. -/
theorem parseDate_range (item : List Int) (e : Err) (r : Int × Err) (h : parseDate item e = some r) :
    0 ≤ r.1 ∧ r.1 ≤ 47512 * dayNanos := by
  unfold parseDate at h
  obtain ⟨l, hl, h⟩ := Option.bind_eq_some_iff.1 h
  split at h
  · injection h with h; subst h; unfold dayNanos; simp only; omega
  · obtain ⟨e', he, h⟩ := Option.map_eq_some_iff.1 h
    subst h
    simp only
    have hr := epochNano_range (parseYmd ⟨l.1, l.2, e⟩).1.1 (parseYmd ⟨l.1, l.2, e⟩).1.2.1 (parseYmd ⟨l.1, l.2, e⟩).1.2.2
    split
    · decide
    · omega

theorem parseHms_range (s : St) (h : (parseHms s).1.2.2.2 = true) :
    (0 ≤ (parseHms s).1.1 ∧ (parseHms s).1.1 < 24) ∧ (0 ≤ (parseHms s).1.2.1 ∧ (parseHms s).1.2.1 < 60) ∧
    (0 ≤ (parseHms s).1.2.2.1 ∧ (parseHms s).1.2.2.1 < 60) := by
  unfold parseHms at *
  cases hr : s.rest with
  | nil => simp
  | cons c r =>
    rw [hr] at h
    simp only at h ⊢
    by_cases hd : isDigit c = true
    · rw [if_pos hd]; simp
    · rw [if_neg hd] at h ⊢
      generalize St.mk r (s.pos + 1) (if c = 84 ∨ c = 32 then s.err else note "Unexpected delimiter" s.pos s.err) = s1 at h ⊢
      have hn := parseNumber_range 2 s1
      by_cases hb : (parseSingle 58 (parseNumber 2 s1).2).1 = true
      · rw [if_pos hb] at h ⊢
        simp only [Bool.and_eq_true, decide_eq_true_eq] at h ⊢
        have := parseMs_range _ h.2
        omega
      · rw [if_neg hb] at h ⊢
        simp only [decide_eq_true_eq] at h ⊢
        omega

/-- **C88**, range of dates and times: far below `2 ^ 63`, so that nothing overflows. -/
theorem parseDateTime_range (item : List Int) (e : Err) (r : Int × Err) (h : parseDateTime item e = some r) :
    0 ≤ r.1 ∧ r.1 < 47513 * dayNanos := by
  unfold parseDateTime at h
  obtain ⟨l, hl, h⟩ := Option.bind_eq_some_iff.1 h
  split at h
  · injection h with h; subst h; unfold dayNanos; simp only; omega
  · obtain ⟨e', he, h⟩ := Option.map_eq_some_iff.1 h
    subst h
    simp only
    generalize parseYmd ⟨l.1, l.2, e⟩ = y
    have hr := epochNano_range y.1.1 y.1.2.1 y.1.2.2
    generalize epochNano y.1.1 y.1.2.1 y.1.2.2 = v at *
    have hd : dayNanos = 86400000000000 := rfl
    split
    · next hok =>
      simp only [Bool.and_eq_true, decide_eq_true_eq] at hok
      have hm := parseHms_range y.2 hok.2
      have hc := clock_range hm.1 hm.2.1 hm.2.2
      have hf := parseFraction_range (parseHms y.2).2
      rw [if_neg (by omega)]
      omega
    · split <;> omega

/-! ## Definedness -/

/-- Characters for which `isspace` is defined. -/
def Narrow (l : List Int) : Prop := ∀ c ∈ l, -1 ≤ c ∧ c ≤ 255

theorem isspace_narrow {c : Int} (h : -1 ≤ c ∧ c ≤ 255) : ∃ b, isspace c = some b := by
  unfold isspace; rw [if_pos h]; exact ⟨_, rfl⟩

theorem lead_narrow (l : List Int) (p : Nat) (h : Narrow l) : ∃ q, lead l p = some q ∧ Narrow q.1 := by
  induction l generalizing p with
  | nil => exact ⟨_, rfl, h⟩
  | cons c r ih =>
    rw [lead]
    split
    · exact ⟨_, rfl, h⟩
    · obtain ⟨b, hb⟩ := isspace_narrow (h c (by simp))
      rw [hb]
      simp only [Option.bind_some]
      split
      · exact ih _ fun x hx => h x (by simp [hx])
      · exact ⟨_, rfl, h⟩

theorem trail_narrow (l : List Int) (p : Nat) (e : Err) (h : Narrow l) : ∃ q, trail l p e = some q := by
  induction l generalizing p e with
  | nil => exact ⟨_, rfl⟩
  | cons c r ih =>
    rw [trail]
    split
    · exact ⟨_, rfl⟩
    · obtain ⟨b, hb⟩ := isspace_narrow (h c (by simp))
      rw [hb]
      simp only [Option.bind_some]
      exact ih _ _ fun x hx => h x (by simp [hx])

theorem skipNon_narrow (l : List Int) (p : Nat) (e : Err) (h : Narrow l) : Narrow (skipNon l p e).rest := by
  induction l generalizing p e with
  | nil => exact h
  | cons c r ih =>
    rw [skipNon]
    split
    · exact h
    · exact ih _ _ fun x hx => h x (by simp [hx])

theorem digitsLoop_narrow (k : Nat) (l : List Int) (n : Int) (h : Narrow l) : Narrow (digitsLoop k l n).2.1 := by
  induction k generalizing l n with
  | zero => exact h
  | succ k ih =>
    cases l with
    | nil => exact h
    | cons c r =>
      rw [digitsLoop]
      split
      · exact ih r _ fun x hx => h x (by simp [hx])
      · exact h

theorem parseNumber_narrow (k : Nat) (s : St) (h : Narrow s.rest) : Narrow (parseNumber k s).2.rest :=
  digitsLoop_narrow k _ _ (skipNon_narrow _ _ _ h)

theorem parseSingle_narrow (x : Int) (s : St) (h : Narrow s.rest) : Narrow (parseSingle x s).2.rest := by
  unfold parseSingle
  cases hr : s.rest with
  | nil => simp only; exact h
  | cons c r =>
    simp only
    split
    · exact h
    · exact fun y hy => h y (by rw [hr]; simp [hy])

theorem parseFraction_narrow (s : St) (h : Narrow s.rest) : Narrow (parseFraction s).2.rest := by
  unfold parseFraction
  cases hr : s.rest with
  | nil => simp only; exact h
  | cons c r =>
    simp only
    split
    · exact digitsLoop_narrow 9 _ _ fun y hy => h y (by rw [hr]; simp [hy])
    · exact h

theorem parseYmd_narrow (s : St) (h : Narrow s.rest) : Narrow (parseYmd s).2.rest := by
  unfold parseYmd
  simp only
  apply parseNumber_narrow
  have h3 := parseSingle_narrow 45 _ (parseNumber_narrow 2 _ (parseSingle_narrow 45 _ (parseNumber_narrow 4 s h)))
  split <;> exact h3

theorem parseMs_narrow (s : St) (h : Narrow s.rest) : Narrow (parseMs s).2.rest := by
  unfold parseMs
  simp only
  have h3 := parseSingle_narrow 58 _ (parseNumber_narrow 2 s h)
  split
  · exact parseNumber_narrow 2 _ h3
  · exact h3

theorem parseHms_narrow (s : St) (h : Narrow s.rest) : Narrow (parseHms s).2.rest := by
  unfold parseHms
  cases hr : s.rest with
  | nil => simp only; exact h
  | cons c r =>
    simp only
    split
    · exact h
    · have h1 : Narrow r := fun y hy => h y (by rw [hr]; simp [hy])
      generalize (if c = 84 ∨ c = 32 then s.err else note "Unexpected delimiter" s.pos s.err) = e1
      have h3 := parseSingle_narrow 58 _ (parseNumber_narrow 2 ⟨r, s.pos + 1, e1⟩ h1)
      split
      · exact parseMs_narrow _ h3
      · exact h3

/-- **C88**, definedness: the parsers are defined on every string of characters up to 255. -/
theorem parse_defined (item : List Int) (e : Err) (h : Narrow item) :
    (∃ r, parseDate item e = some r) ∧ (∃ r, parseTime item e = some r) ∧ (∃ r, parseDateTime item e = some r) := by
  obtain ⟨q, hq, hn⟩ := lead_narrow item 0 h
  refine ⟨?_, ?_, ?_⟩
  · unfold parseDate
    rw [hq]
    simp only [Option.bind_some]
    split
    · exact ⟨_, rfl⟩
    · obtain ⟨e', he⟩ := trail_narrow _ (parseYmd ⟨q.1, q.2, e⟩).2.pos (parseYmd ⟨q.1, q.2, e⟩).2.err
        (parseYmd_narrow ⟨q.1, q.2, e⟩ hn)
      rw [he]; exact ⟨_, rfl⟩
  · unfold parseTime
    rw [hq]
    simp only [Option.bind_some]
    have h3 := parseSingle_narrow 58 _ (parseNumber_narrow 2 ⟨q.1, q.2, e⟩ hn)
    split
    · exact ⟨_, rfl⟩
    · split
      · have h4 := parseFraction_narrow _ (parseMs_narrow _ h3)
        obtain ⟨e', he⟩ := trail_narrow _
          (parseFraction (parseMs (parseSingle 58 (parseNumber 2 ⟨q.1, q.2, e⟩).2).2).2).2.pos
          (parseFraction (parseMs (parseSingle 58 (parseNumber 2 ⟨q.1, q.2, e⟩).2).2).2).2.err h4
        rw [he]; exact ⟨_, rfl⟩
      · obtain ⟨e', he⟩ := trail_narrow _ (parseSingle 58 (parseNumber 2 ⟨q.1, q.2, e⟩).2).2.pos
          (parseSingle 58 (parseNumber 2 ⟨q.1, q.2, e⟩).2).2.err h3
        rw [he]; exact ⟨_, rfl⟩
  · unfold parseDateTime
    rw [hq]
    simp only [Option.bind_some]
    split
    · exact ⟨_, rfl⟩
    · have h4 := parseFraction_narrow _ (parseHms_narrow _ (parseYmd_narrow ⟨q.1, q.2, e⟩ hn))
      obtain ⟨e', he⟩ := trail_narrow _ (parseFraction (parseHms (parseYmd ⟨q.1, q.2, e⟩).2).2).2.pos
        (parseFraction (parseHms (parseYmd ⟨q.1, q.2, e⟩).2).2).2.err h4
      rw [he]; exact ⟨_, rfl⟩

/-! ## What is accepted without an error -/

theorem note_some (m : String) (p : Nat) (e : Err) : note m p e ≠ none := by
  unfold note; cases e <;> simp

theorem skipNon_accept (l : List Int) (p : Nat) (e : Err) (h : (skipNon l p e).err = none) :
    e = none ∧ skipNon l p e = ⟨l, p, e⟩ ∧ (l = [] ∨ ∃ c r, l = c :: r ∧ isDigit c = true) := by
  induction l generalizing p e with
  | nil => exact ⟨h, rfl, .inl rfl⟩
  | cons c r ih =>
    rw [skipNon] at *
    by_cases hc : isDigit c = true
    · rw [if_pos hc] at *; exact ⟨h, rfl, .inr ⟨c, r, rfl, hc⟩⟩
    · rw [if_neg hc] at h
      exact absurd (ih _ _ h).1 (note_some _ _ _)

theorem digitsLoop_split (k : Nat) (l : List Int) (n : Int) :
    ∃ ds, l = ds ++ (digitsLoop k l n).2.1 ∧ (∀ c ∈ ds, isDigit c = true) ∧ ds.length ≤ k ∧
      (digitsLoop k l n).1 = val ds n ∧ (ds.length = k ∨ Stops (digitsLoop k l n).2.1) := by
  induction k generalizing l n with
  | zero => exact ⟨[], rfl, nofun, Nat.le_refl _, rfl, .inl rfl⟩
  | succ k ih =>
    cases l with
    | nil => exact ⟨[], rfl, nofun, by simp, rfl, .inr (fun _ _ h => by cases h)⟩
    | cons c r =>
      rw [digitsLoop]
      by_cases hc : isDigit c = true
      · rw [if_pos hc]
        obtain ⟨ds, h1, h2, h3, h4, h5⟩ := ih r (n * 10 + (c - 48))
        refine ⟨c :: ds, by simp only [List.cons_append]; rw [← h1], ?_, by simpa using h3, h4, by simpa using h5⟩
        intro x hx
        rcases List.mem_cons.1 hx with rfl | hx
        · exact hc
        · exact h2 x hx
      · rw [if_neg hc]
        refine ⟨[], rfl, nofun, by simp, rfl, .inr ?_⟩
        intro x s hx
        injection hx with h1 _
        rw [← h1]; simpa using hc

/-- A number accepted without an error. -/
theorem parseNumber_accept (k : Nat) (hk : 0 < k) (s : St) (h : (parseNumber k s).2.err = none) :
    s.err = none ∧ ∃ ds, s.rest = ds ++ (parseNumber k s).2.rest ∧ (∀ c ∈ ds, isDigit c = true) ∧ ds.length ≤ k ∧
      (parseNumber k s).1 = val ds 0 ∧ (ds.length = k ∨ Stops (parseNumber k s).2.rest) ∧ (ds = [] → s.rest = []) := by
  unfold parseNumber at *
  simp only at *
  obtain ⟨h1, h2, h3⟩ := skipNon_accept _ _ _ h
  rw [h2]
  simp only
  obtain ⟨ds, d1, d2, d3, d4, d5⟩ := digitsLoop_split k s.rest 0
  refine ⟨h1, ds, d1, d2, d3, d4, d5, ?_⟩
  rintro rfl
  rcases h3 with h3 | ⟨c, r, h3, h4⟩
  · exact h3
  · rcases d5 with d5 | d5
    · simp at d5; omega
    · rw [List.nil_append] at d1
      rw [← d1] at d5
      exact absurd h4 (by rw [d5 c r h3]; decide)

theorem parseSingle_accept (x : Int) (s : St) (h : (parseSingle x s).2.err = none) :
    s.err = none ∧ (((parseSingle x s).1 = true ∧ s.rest = x :: (parseSingle x s).2.rest) ∨
      ((parseSingle x s).1 = false ∧ (parseSingle x s).2 = s)) := by
  unfold parseSingle at *
  cases hr : s.rest with
  | nil => rw [hr] at h; exact ⟨h, .inr ⟨rfl, rfl⟩⟩
  | cons c r =>
    rw [hr] at h
    simp only at h ⊢
    by_cases hc : isDigit c = true
    · rw [if_pos hc] at h ⊢; exact ⟨h, .inr ⟨rfl, rfl⟩⟩
    · rw [if_neg hc] at h ⊢
      by_cases hx : c = x
      · simp only [hx, if_true] at h ⊢; exact ⟨h, .inl ⟨trivial, trivial⟩⟩
      · simp only [hx, if_false] at h; exact absurd h (note_some _ _ _)

theorem isspace_true {c : Int} (h : isspace c = some true) : Space c := by
  unfold isspace at h
  split at h
  · injection h with h
    simp only [Bool.or_eq_true, Bool.and_eq_true, decide_eq_true_eq] at h
    exact h
  · cases h

theorem tail_cons {c : Int} {l : List Int} (hc : Space c) (h : Tail l) : Tail (c :: l) := by
  obtain ⟨ws, z, rfl, hw, hz⟩ := h
  refine ⟨c :: ws, z, rfl, ?_, hz⟩
  intro x hx
  rcases List.mem_cons.1 hx with rfl | hx
  · exact hc
  · exact hw x hx

theorem trail_accept (l : List Int) (p : Nat) (e : Err) (h : trail l p e = some none) : e = none ∧ Tail l := by
  induction l generalizing p e with
  | nil => rw [trail] at h; exact ⟨by simpa using h, [], [], rfl, nofun, .inl rfl⟩
  | cons c r ih =>
    rw [trail] at h
    by_cases hc : c = 0
    · rw [if_pos hc] at h; exact ⟨by simpa using h, [], _, rfl, nofun, .inr ⟨r, by rw [hc]⟩⟩
    · rw [if_neg hc] at h
      obtain ⟨b, hb, h⟩ := Option.bind_eq_some_iff.1 h
      obtain ⟨h1, h2⟩ := ih _ _ h
      cases b with
      | true => exact ⟨by simpa using h1, tail_cons (isspace_true hb) h2⟩
      | false => simp only [Bool.false_eq_true, if_false] at h1; exact absurd h1 (note_some _ _ _)

theorem lead_split (l : List Int) (p : Nat) (q : List Int × Nat) (h : lead l p = some q) :
    ∃ ws, l = ws ++ q.1 ∧ Blank ws := by
  induction l generalizing p with
  | nil => rw [lead] at h; injection h with h; subst h; exact ⟨[], rfl, nofun⟩
  | cons c r ih =>
    rw [lead] at h
    by_cases hc : c = 0
    · rw [if_pos hc] at h; injection h with h; subst h; exact ⟨[], rfl, nofun⟩
    · rw [if_neg hc] at h
      obtain ⟨b, hb, h⟩ := Option.bind_eq_some_iff.1 h
      cases b with
      | true =>
        simp only [if_true] at h
        obtain ⟨ws, h1, h2⟩ := ih _ h
        refine ⟨c :: ws, by rw [h1]; rfl, ?_⟩
        intro x hx
        rcases List.mem_cons.1 hx with rfl | hx
        · exact isspace_true hb
        · exact h2 x hx
      | false =>
        simp only [Bool.false_eq_true, if_false] at h
        injection h with h; subst h; exact ⟨[], rfl, nofun⟩

/-- Up to `k` digits. -/
def Digits (k : Nat) (ds : List Int) : Prop := (∀ c ∈ ds, isDigit c = true) ∧ ds.length ≤ k

/-- A date part accepted without an error. -/
theorem parseYmd_accept (s : St) (h : (parseYmd s).2.err = none) :
    s.err = none ∧ ∃ y m d, ∃ sep : Bool, Digits 4 y ∧ Digits 2 m ∧ Digits 2 d ∧
      s.rest = y ++ ((if sep then [45] else []) ++ (m ++ ((if sep then [45] else []) ++ (d ++ (parseYmd s).2.rest)))) ∧
      (parseYmd s).1 = (val y 0, val m 0, val d 0) ∧ (y = [] → s.rest = []) := by
  unfold parseYmd at *
  simp only at *
  generalize hY : parseNumber 4 s = Y at *
  generalize hB : parseSingle 45 Y.2 = B at *
  generalize hM : parseNumber 2 B.2 = M at *
  generalize hC : parseSingle 45 M.2 = C at *
  obtain ⟨e1, d, d1, d2, d3, d4, -, -⟩ := parseNumber_accept 2 (by decide) _ h
  by_cases hbc : B.1 = C.1
  · rw [if_pos hbc] at *
    have c1 := parseSingle_accept 45 M.2 (by rw [hC]; exact e1)
    rw [hC] at c1
    have m1 := parseNumber_accept 2 (by decide) B.2 (by rw [hM]; exact c1.1)
    rw [hM] at m1
    obtain ⟨em, m, m1, m2, m3, m4, -, -⟩ := m1
    have b1 := parseSingle_accept 45 Y.2 (by rw [hB]; exact em)
    rw [hB] at b1
    have y1 := parseNumber_accept 4 (by decide) s (by rw [hY]; exact b1.1)
    rw [hY] at y1
    obtain ⟨ey, y, y1, y2, y3, y4, -, y6⟩ := y1
    refine ⟨ey, y, m, d, B.1, ⟨y2, y3⟩, ⟨m2, m3⟩, ⟨d2, d3⟩, ?_, by rw [y4, m4, d4], y6⟩
    rw [← d1, y1]
    congr 1
    rcases b1.2 with ⟨b2, b3⟩ | ⟨b2, b3⟩
    · rw [b2, b3]
      rcases c1.2 with ⟨c2, c3⟩ | ⟨c2, c3⟩
      · rw [m1, c3]; rfl
      · rw [b2, c2] at hbc; cases hbc
    · rw [b2, ← b3]
      rcases c1.2 with ⟨c2, c3⟩ | ⟨c2, c3⟩
      · rw [b2, c2] at hbc; cases hbc
      · rw [m1, c3]; rfl
  · rw [if_neg hbc] at e1
    exact absurd e1 (note_some _ _ _)

theorem tail_blank {ws l : List Int} (hw : Blank ws) (h : Tail l) : Tail (ws ++ l) := by
  induction ws with
  | nil => exact h
  | cons c ws ih => exact tail_cons (hw c (by simp)) (ih fun x hx => hw x (by simp [hx]))

theorem atEnd_tail {l : List Int} (h : atEnd l = true) : Tail l := by
  cases l with
  | nil => exact ⟨[], [], rfl, nofun, .inl rfl⟩
  | cons c r =>
    unfold atEnd at h
    simp only [decide_eq_true_eq] at h
    exact ⟨[], _, rfl, nofun, .inr ⟨r, by rw [h]⟩⟩

/-- **C88**, what is accepted as a date without an error: nothing at all, or numbers of up to 4, 2 and 2 digits with both
hyphens or none; the result is that of the numbers, 0 if they are out of range. -/
theorem parseDate_accepts (item : List Int) (r : Int) (h : parseDate item none = some (r, none)) :
    (Tail item ∧ r = 0) ∨ ∃ ws y m d t, ∃ sep : Bool, Blank ws ∧ Digits 4 y ∧ y ≠ [] ∧ Digits 2 m ∧ Digits 2 d ∧ Tail t ∧
      item = ws ++ (y ++ ((if sep then [45] else []) ++ (m ++ ((if sep then [45] else []) ++ (d ++ t))))) ∧
      r = (if epochNano (val y 0) (val m 0) (val d 0) < 0 then 0 else epochNano (val y 0) (val m 0) (val d 0)) := by
  unfold parseDate at h
  obtain ⟨l, hl, h⟩ := Option.bind_eq_some_iff.1 h
  obtain ⟨ws, w1, w2⟩ := lead_split _ _ _ hl
  by_cases ha : atEnd l.1 = true
  · rw [if_pos ha] at h
    injection h with h
    injection h with h1 _
    refine .inl ⟨?_, h1.symm⟩
    rw [w1]
    exact tail_blank w2 (atEnd_tail ha)
  · rw [if_neg ha] at h
    obtain ⟨e', he, h⟩ := Option.map_eq_some_iff.1 h
    injection h with h1 h2
    subst h2
    obtain ⟨t1, t2⟩ := trail_accept _ _ _ he
    obtain ⟨-, y, m, d, sep, y1, m1, d1, hr, hv, hy⟩ := parseYmd_accept ⟨l.1, l.2, none⟩ t1
    refine .inr ⟨ws, y, m, d, _, sep, w2, y1, ?_, m1, d1, t2, ?_, ?_⟩
    · intro c
      have := hy c
      simp only at this
      rw [this] at ha
      exact ha rfl
    · rw [w1]; congr 1
    · rw [← h1, hv]

/-! ## Where the statement fails -/

/-- **C88**: a date that does not exist gives the value of the epoch, without an error ("2021-13-01"). -/
theorem parseDate_invalid_silent :
    parseDate [50, 48, 50, 49, 45, 49, 51, 45, 48, 49] none = some (0, none) ∧
    parseDate [49, 57, 55, 48, 45, 48, 49, 45, 48, 49] none = some (0, none) := by decide +kernel

/-- **C88**: an hour alone is a time of 0, without an error ("12"). -/
theorem parseTime_hour_only : parseTime [49, 50] none = some (0, none) := by decide +kernel

/-- **C88**: a date with an hour out of range is taken as the date, without an error ("2020-01-01 25:00:00"). -/
theorem parseDateTime_bad_hour :
    parseDateTime [50, 48, 50, 48, 45, 48, 49, 45, 48, 49, 32, 50, 53, 58, 48, 48, 58, 48, 48] none =
      some (18262 * dayNanos, none) := by decide +kernel

/-- **C88**: hours and minutes give an error when they are shorter than the item ("12:34" and then a zero byte). -/
theorem parseTime_pad_warns :
    parseTime [49, 50, 58, 51, 52] none = some (45240000000000, none) ∧
    parseTime [49, 50, 58, 51, 52, 0] none = some (45240000000000, some ("Unexpected delimiter", 5)) := by decide +kernel

/-- **C88**: a date alone gives an error as date and time when it is shorter than the item. -/
theorem parseDateTime_pad_warns :
    parseDateTime [50, 48, 50, 48, 48, 49, 48, 49] none = some (18262 * dayNanos, none) ∧
    parseDateTime [50, 48, 50, 48, 48, 49, 48, 49, 0] none = some (18262 * dayNanos, some ("Unexpected delimiter", 8)) := by
  decide +kernel

/-- **C88**: the fraction after minutes is taken as seconds ("12:34.5" is 12:34:05). -/
theorem parseTime_fraction_minutes :
    parseTime [49, 50, 58, 51, 52, 46, 53] none = some (45245000000000, some ("Unexpected delimiter", 5)) := by
  decide +kernel

/-- **C88**: characters beyond Latin-1, and bytes of 128 and more other than 255, are undefined behaviour in `isspace`. -/
theorem parse_nonascii_undefined : parseDate [8364] none = none ∧ parseTime [-61, -87] none = none := by decide +kernel

/-! ## Arrays -/

theorem note_or (m : String) (p : Nat) (e : Err) : note m p e = e.or (some (m, p)) := by cases e <;> rfl

/-- The state with an error from before. -/
def St.after (e : Err) (s : St) : St := { s with err := e.or s.err }

theorem skipNon_after (l : List Int) (p : Nat) (e d : Err) : skipNon l p (e.or d) = (skipNon l p d).after e := by
  induction l generalizing p d with
  | nil => rfl
  | cons c r ih =>
    rw [skipNon, skipNon]
    split
    · rfl
    · rw [note_or, Option.or_assoc, ← note_or, ih]

theorem parseNumber_after (k : Nat) (e : Err) (s : St) :
    parseNumber k (s.after e) = ((parseNumber k s).1, (parseNumber k s).2.after e) := by
  unfold parseNumber
  simp only [St.after, skipNon_after]

theorem parseSingle_after (x : Int) (e : Err) (s : St) :
    parseSingle x (s.after e) = ((parseSingle x s).1, (parseSingle x s).2.after e) := by
  unfold parseSingle
  have : (s.after e).rest = s.rest := rfl
  rw [this]
  cases hr : s.rest with
  | nil => rfl
  | cons c r =>
    simp only
    split
    · rfl
    · simp only [St.after]
      congr 2
      split
      · rfl
      · rw [note_or, note_or, Option.or_assoc]

theorem parseFraction_after (e : Err) (s : St) :
    parseFraction (s.after e) = ((parseFraction s).1, (parseFraction s).2.after e) := by
  unfold parseFraction
  have : (s.after e).rest = s.rest := rfl
  rw [this]
  cases hr : s.rest with
  | nil => rfl
  | cons c r =>
    simp only
    split <;> rfl

theorem parseYmd_after (e : Err) (s : St) : parseYmd (s.after e) = ((parseYmd s).1, (parseYmd s).2.after e) := by
  unfold parseYmd
  simp only [parseNumber_after, parseSingle_after]
  split
  · rw [parseNumber_after]
  · have : ∀ (c : St) (m : String), ({ c.after e with err := note m (c.after e).pos (c.after e).err } : St) =
        ({ c with err := note m c.pos c.err } : St).after e := by
      intro c m
      unfold St.after
      simp only [note_or, Option.or_assoc]
    rw [this, parseNumber_after]

theorem parseMs_after (e : Err) (s : St) : parseMs (s.after e) = ((parseMs s).1, (parseMs s).2.after e) := by
  unfold parseMs
  simp only [parseNumber_after, parseSingle_after]
  split <;> rfl

theorem parseHms_after (e : Err) (s : St) : parseHms (s.after e) = ((parseHms s).1, (parseHms s).2.after e) := by
  unfold parseHms
  have : (s.after e).rest = s.rest := rfl
  rw [this]
  cases hr : s.rest with
  | nil => rfl
  | cons c r =>
    simp only
    split
    · rfl
    · have h1 : (⟨r, (s.after e).pos + 1, if c = 84 ∨ c = 32 then (s.after e).err
          else note "Unexpected delimiter" (s.after e).pos (s.after e).err⟩ : St) =
          (⟨r, s.pos + 1, if c = 84 ∨ c = 32 then s.err else note "Unexpected delimiter" s.pos s.err⟩ : St).after e := by
        unfold St.after
        simp only
        congr 1
        split
        · rfl
        · rw [note_or, note_or, Option.or_assoc]
      rw [h1]
      generalize St.mk r (s.pos + 1) (if c = 84 ∨ c = 32 then s.err else note "Unexpected delimiter" s.pos s.err) = s1
      simp only [parseNumber_after, parseSingle_after, parseMs_after]
      split <;> rfl

theorem trail_after (l : List Int) (p : Nat) (e d : Err) : trail l p (e.or d) = (trail l p d).map (e.or ·) := by
  induction l generalizing p d with
  | nil => rfl
  | cons c r ih =>
    rw [trail, trail]
    split
    · rfl
    · cases isspace c with
      | none => rfl
      | some b =>
        simp only [Option.bind_some]
        cases b with
        | true => exact ih _ _
        | false =>
          simp only [Bool.false_eq_true, if_false]
          rw [note_or, Option.or_assoc, ← note_or, ih]

theorem trail_st (s : St) (e : Err) : trail (s.after e).rest (s.after e).pos (s.after e).err =
    (trail s.rest s.pos s.err).map (e.or ·) := trail_after _ _ _ _

/-- An earlier error changes nothing but the error. -/
theorem parseDate_after (item : List Int) (e : Err) :
    parseDate item e = (parseDate item none).map fun r => (r.1, e.or r.2) := by
  unfold parseDate
  cases lead item 0 with
  | none => rfl
  | some l =>
    simp only [Option.bind_some]
    split
    · simp
    · have h : (⟨l.1, l.2, e⟩ : St) = (⟨l.1, l.2, none⟩ : St).after e := by simp [St.after]
      rw [h, parseYmd_after, trail_st]
      simp only [Option.map_map]
      rfl

theorem parseTime_after (item : List Int) (e : Err) :
    parseTime item e = (parseTime item none).map fun r => (r.1, e.or r.2) := by
  unfold parseTime
  cases lead item 0 with
  | none => rfl
  | some l =>
    simp only [Option.bind_some]
    split
    · simp
    · have h : (⟨l.1, l.2, e⟩ : St) = (⟨l.1, l.2, none⟩ : St).after e := by simp [St.after]
      rw [h]
      simp only [parseNumber_after, parseSingle_after, parseMs_after, parseFraction_after]
      split
      · rw [trail_st]; simp only [Option.map_map]; rfl
      · rw [trail_st]; simp only [Option.map_map]; rfl

theorem parseDateTime_after (item : List Int) (e : Err) :
    parseDateTime item e = (parseDateTime item none).map fun r => (r.1, e.or r.2) := by
  unfold parseDateTime
  cases lead item 0 with
  | none => rfl
  | some l =>
    simp only [Option.bind_some]
    split
    · simp
    · have h : (⟨l.1, l.2, e⟩ : St) = (⟨l.1, l.2, none⟩ : St).after e := by simp [St.after]
      rw [h]
      simp only [parseYmd_after, parseHms_after, parseFraction_after]
      rw [trail_st]; simp only [Option.map_map]; rfl

/-- **C88**, arrays: each item is converted as if it were alone, and the error is that of the first item with one. -/
theorem parseAll_items (parse : List Int → Err → Option (Int × Err))
    (h : ∀ x e, parse x e = (parse x none).map fun r => (r.1, e.or r.2)) (items : List (List Int)) (e : Err) :
    parseAll parse items e = (items.mapM fun x => parse x none).map fun rs =>
      (rs.map Prod.fst, e.or (rs.findSome? Prod.snd)) := by
  induction items generalizing e with
  | nil => simp [parseAll]
  | cons x xs ih =>
    rw [parseAll, h x e, List.mapM_cons]
    cases parse x none with
    | none => rfl
    | some r =>
      simp only [Option.map_some, Option.bind_some]
      rw [ih]
      show _ = Option.map _ ((xs.mapM fun x => parse x none).bind fun rs => some (r :: rs))
      cases xs.mapM (fun x => parse x none) with
      | none => rfl
      | some rs =>
        simp only [Option.map_some, Option.bind_some, List.map_cons, List.findSome?_cons]
        congr 2
        rw [Option.or_assoc]
        cases r.2 <;> rfl

/-- It applies to the three parsers. -/
example (items : List (List Int)) : parseAll parseDate items none =
    (items.mapM fun x => parseDate x none).map fun rs => (rs.map Prod.fst, rs.findSome? Prod.snd) := by
  rw [parseAll_items parseDate parseDate_after]; simp

example : parseAll parseTime [[49], [50, 58, 51], [120]] none = some ([0, 7380000000000, 0], some ("Unexpected characters", 0)) := by
  decide +kernel

end Riptide.Date
