import Verif.Median.Model
import Verif.Median.Spec
/-! The index of a quantile in double arithmetic. -/
namespace Riptide.Median
open Spec

theorem divRound_le {a b m : Nat} (hb : 0 < b) (h : a ≤ m * b) : divRound a b ≤ m := by
  unfold divRound
  have hd : a / b ≤ m := by
    rw [Nat.div_le_iff_le_mul_add_pred hb]
    rw [Nat.mul_comm] at h
    omega
  have e := Nat.div_add_mod a b
  split
  · next hc =>
    have hr : 0 < a % b := by omega
    rcases Nat.lt_or_eq_of_le hd with h1 | h1
    · omega
    · rw [h1, Nat.mul_comm] at e
      omega
  · exact hd

/-- `divRound` is the nearest integer, the even one of two. -/
theorem divRound_nearest {a b : Nat} (hb : 0 < b) :
    2 * (b * divRound a b) ≤ 2 * a + b ∧ 2 * a ≤ 2 * (b * divRound a b) + b ∧
    (2 * (b * divRound a b) = 2 * a + b ∨ 2 * a = 2 * (b * divRound a b) + b → divRound a b % 2 = 0) := by
  have h1 := Nat.div_add_mod a b
  have h2 := Nat.mod_lt a hb
  unfold divRound
  generalize a % b = r at *
  generalize a / b = q at *
  by_cases h : b < 2 * r ∨ 2 * r = b ∧ q % 2 = 1
  · rw [if_pos h, Nat.mul_add, Nat.mul_one]
    generalize b * q = z at *
    omega
  · rw [if_neg h]
    generalize b * q = z at *
    omega

example : divRound 7 2 = 4 ∧ divRound 5 2 = 2 ∧ divRound 8 3 = 3 := by decide

theorem divRound_exact {m b : Nat} (hb : 0 < b) : divRound (m * b) b = m := by
  unfold divRound
  rw [Nat.mul_mod_left, Nat.mul_div_cancel _ hb, if_neg (by omega)]

/-- Rounding to the nearest double does not pass an integer. -/
theorem nearest_le {a b m : Nat} (hb : 0 < b) (h : a ≤ m * b) : (nearest a b).1 ≤ m * 2 ^ (nearest a b).2 := by
  unfold nearest
  dsimp only
  generalize 52 + (b.log2 + 1) - (a * 2 ^ (b.log2 + 1) / b).log2 = s
  apply divRound_le hb
  rw [Nat.mul_right_comm]
  exact Nat.mul_le_mul_right _ h

/-- C84: the positions taken are inside the group, and adjacent. -/
theorem quantIdx_range {q n : Nat} (hq : q ≤ 1000000000) (hn : 0 < n) :
    (quantIdx q n).2 < n ∧ ((quantIdx q n).2 = (quantIdx q n).1 ∨ (quantIdx q n).2 = (quantIdx q n).1 + 1) := by
  unfold quantIdx
  dsimp only
  have h1 : (nearest q 1000000000).1 ≤ 1 * 2 ^ (nearest q 1000000000).2 := nearest_le (by decide) (by omega)
  generalize nearest q 1000000000 = c at h1
  have h2 := nearest_le (a := (n - 1) * c.1) (b := 2 ^ c.2) (m := n - 1) (Nat.pow_pos (by decide))
    (Nat.mul_le_mul_left _ (by omega))
  generalize nearest ((n - 1) * c.1) (2 ^ c.2) = p at h2
  have hpos : 0 < 2 ^ p.2 := Nat.pow_pos (by decide)
  generalize 2 ^ p.2 = D at h2 hpos
  have e := Nat.div_add_mod p.1 D
  have hm := Nat.mod_lt p.1 hpos
  generalize p.1 % D = r at e hm
  generalize hk : p.1 / D = k at e
  have e2 : (p.1 + D - 1) / D = if r = 0 then k else k + 1 := by
    split
    · next h =>
      apply Nat.div_eq_of_lt_le
      · rw [Nat.mul_comm]; omega
      · rw [Nat.succ_mul, Nat.mul_comm k D]; omega
    · next h =>
      apply Nat.div_eq_of_lt_le
      · rw [Nat.succ_mul, Nat.mul_comm k D]; omega
      · rw [Nat.succ_mul, Nat.succ_mul, Nat.mul_comm k D]; omega
  have e3 : (p.1 + D - 1) / D ≤ n - 1 := by
    rw [Nat.div_le_iff_le_mul_add_pred hpos]
    rw [Nat.mul_comm] at h2
    omega
  refine ⟨by omega, ?_⟩
  rw [e2]
  split <;> simp

theorem log2_le {x m : Nat} (h : x < 2 ^ (m + 1)) : x.log2 ≤ m := by
  by_cases h0 : x = 0
  · subst h0; simp
  · have := (Nat.log2_lt h0).2 h
    omega

/-- C84: for quantiles `c / 2 ^ j` (the median, the quartiles, the ends and others) the positions are exact. -/
theorem quantIdx_exact {q n c j : Nat} (hq : q ≤ 1000000000) (hj : j ≤ 9) (hc : q * 2 ^ j = c * 1000000000)
    (hn : n ≤ 2 ^ 40) : quantIdx q n = quantRanks q n := by
  have hb : (1000000000 : Nat).log2 = 29 := by decide +kernel
  have hpj : 0 < 2 ^ j := Nat.pow_pos (by decide)
  have hcj : c ≤ 2 ^ j := by
    have : q * 2 ^ j ≤ 1000000000 * 2 ^ j := Nat.mul_le_mul_right _ hq
    omega
  obtain ⟨s, hs, h1⟩ : ∃ s, j ≤ s ∧ nearest q 1000000000 = (c * 2 ^ (s - j), s) := by
    unfold nearest
    dsimp only
    rw [hb]
    have hl : (q * 2 ^ (29 + 1) / 1000000000).log2 ≤ 30 := by
      apply log2_le
      rw [Nat.div_lt_iff_lt_mul (by decide)]
      have : (2 : Nat) ^ (29 + 1) = 1073741824 := by decide
      rw [this]
      have : (2 : Nat) ^ (30 + 1) = 2147483648 := by decide
      rw [this]
      omega
    refine ⟨52 + (29 + 1) - (q * 2 ^ (29 + 1) / 1000000000).log2, by omega, ?_⟩
    generalize hs : 52 + (29 + 1) - (q * 2 ^ (29 + 1) / 1000000000).log2 = s
    have hjs : j ≤ s := by omega
    have e : q * 2 ^ s = (c * 2 ^ (s - j)) * 1000000000 := by
      have : 2 ^ s = 2 ^ j * 2 ^ (s - j) := by rw [← Nat.pow_add]; congr 1; omega
      rw [this, ← Nat.mul_assoc, hc, Nat.mul_right_comm]
    rw [e, divRound_exact (by decide)]
  unfold quantIdx quantRanks
  rw [h1]
  dsimp only
  have hps : 0 < 2 ^ s := Nat.pow_pos (by decide)
  have esj : 2 ^ s = 2 ^ j * 2 ^ (s - j) := by rw [← Nat.pow_add]; congr 1; omega
  obtain ⟨t, ht, h2⟩ : ∃ t, j ≤ t ∧
      nearest ((n - 1) * (c * 2 ^ (s - j))) (2 ^ s) = ((n - 1) * c * 2 ^ (t - j), t) := by
    unfold nearest
    dsimp only
    rw [Nat.log2_two_pow]
    have hl : ((n - 1) * (c * 2 ^ (s - j)) * 2 ^ (s + 1) / 2 ^ s).log2 ≤ s + 42 := by
      apply log2_le
      rw [Nat.div_lt_iff_lt_mul hps]
      have a1 : c * 2 ^ (s - j) ≤ 2 ^ s := by rw [esj]; exact Nat.mul_le_mul_right _ hcj
      have a2 : (n - 1) * (c * 2 ^ (s - j)) ≤ 2 ^ 40 * 2 ^ s := Nat.mul_le_mul (by omega) a1
      have a3 : (n - 1) * (c * 2 ^ (s - j)) * 2 ^ (s + 1) ≤ 2 ^ 40 * 2 ^ s * 2 ^ (s + 1) := Nat.mul_le_mul_right _ a2
      have a4 : 2 ^ 40 * 2 ^ s * 2 ^ (s + 1) < 2 ^ (s + 42 + 1) * 2 ^ s := by
        rw [← Nat.pow_add, ← Nat.pow_add, ← Nat.pow_add]
        exact Nat.pow_lt_pow_right (by decide) (by omega)
      omega
    refine ⟨52 + (s + 1) - ((n - 1) * (c * 2 ^ (s - j)) * 2 ^ (s + 1) / 2 ^ s).log2, by omega, ?_⟩
    generalize ht : 52 + (s + 1) - ((n - 1) * (c * 2 ^ (s - j)) * 2 ^ (s + 1) / 2 ^ s).log2 = t
    have hjt : j ≤ t := by omega
    have e : (n - 1) * (c * 2 ^ (s - j)) * 2 ^ t = ((n - 1) * c * 2 ^ (t - j)) * 2 ^ s := by
      have : 2 ^ t = 2 ^ j * 2 ^ (t - j) := by rw [← Nat.pow_add]; congr 1; omega
      rw [this, esj]
      generalize 2 ^ j = A
      generalize 2 ^ (s - j) = B
      generalize 2 ^ (t - j) = C
      ac_rfl
    rw [e, divRound_exact hps]
  rw [h2]
  dsimp only
  have etj : 2 ^ t = 2 ^ j * 2 ^ (t - j) := by rw [← Nat.pow_add]; congr 1; omega
  have hptj : 0 < 2 ^ (t - j) := Nat.pow_pos (by decide)
  have key : (n - 1) * c * 1000000000 = (n - 1) * q * 2 ^ j := by rw [Nat.mul_assoc, ← hc, Nat.mul_assoc]
  have floorE : (n - 1) * c / 2 ^ j = (n - 1) * q / 1000000000 := by
    rw [← Nat.mul_div_mul_right _ _ (show 0 < 1000000000 by decide), key, Nat.mul_comm (2 ^ j),
      Nat.mul_div_mul_right _ _ hpj]
  have ceil : ∀ a b : Nat, 0 < b → (a + b - 1) / b = if a % b = 0 then a / b else a / b + 1 := by
    intro a b hb
    have e := Nat.div_add_mod a b
    have hm := Nat.mod_lt a hb
    generalize a % b = r at e hm
    generalize a / b = k at e
    split
    · next h =>
      apply Nat.div_eq_of_lt_le
      · rw [Nat.mul_comm]; omega
      · rw [Nat.succ_mul, Nat.mul_comm k b]; omega
    · next h =>
      apply Nat.div_eq_of_lt_le
      · rw [Nat.succ_mul, Nat.mul_comm k b]; omega
      · rw [Nat.succ_mul, Nat.succ_mul, Nat.mul_comm k b]; omega
  have f1 : (n - 1) * c * 2 ^ (t - j) / 2 ^ t = (n - 1) * q / 1000000000 := by
    rw [etj, Nat.mul_div_mul_right _ _ hptj, floorE]
  have m1 : (n - 1) * c * 2 ^ (t - j) % 2 ^ t = 0 ↔ (n - 1) * q % 1000000000 = 0 := by
    rw [etj, Nat.mul_mod_mul_right, Nat.mul_eq_zero, or_iff_left (by omega)]
    rw [← Nat.dvd_iff_mod_eq_zero, ← Nat.dvd_iff_mod_eq_zero]
    constructor
    · rintro ⟨k, hk⟩
      refine ⟨k, ?_⟩
      apply Nat.eq_of_mul_eq_mul_right hpj
      rw [← key, hk]
      ac_rfl
    · rintro ⟨k, hk⟩
      refine ⟨k, ?_⟩
      apply Nat.eq_of_mul_eq_mul_right (show 0 < 1000000000 by decide)
      rw [key, hk]
      ac_rfl
  have g2 := ceil ((n - 1) * q) 1000000000 (by decide)
  rw [ceil _ (2 ^ t) (Nat.pow_pos (by decide)), f1]
  rw [show (n - 1) * q + 999999999 = (n - 1) * q + 1000000000 - 1 by omega, g2]
  by_cases h : (n - 1) * q % 1000000000 = 0
  · rw [if_pos h, if_pos (m1.2 h)]
  · rw [if_neg h, if_neg fun hc => h (m1.1 hc)]

example : (500000000 : Nat) ≤ 1000000000 ∧ 500000000 * 2 ^ 1 = 1 * 1000000000 ∧ 101 ≤ 2 ^ 40 := by decide

/-- C84: the positions are not exact for every quantile: the 29th percentile of 101 values has rank 29, but the double
product is just below 29, and the code takes the midpoint of the values with ranks 28 and 29. -/
theorem quantIdx_rounded : quantIdx 290000000 101 = (28, 29) ∧ quantRanks 290000000 101 = (29, 29) := by decide +kernel

end Riptide.Median
