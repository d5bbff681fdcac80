import Verif.Convert.Model
import Verif.Convert.Spec
namespace Riptide.Convert
open Riptide.Work

theorem two_pow_pos (n : Nat) : 0 < 2 ^ n := Nat.pow_pos (by decide)

/-- The magnitude bits produced for a small integer. -/
theorem roundMag_small (f : FT) {n : Nat} (h0 : n ≠ 0) (h : n < 2 ^ (f.mb + 1)) :
    f.roundMag n = (n.log2 + f.bias) * 2 ^ f.mb + (n * 2 ^ (f.mb - n.log2) - 2 ^ f.mb) ∧
    2 ^ f.mb ≤ n * 2 ^ (f.mb - n.log2) ∧ n * 2 ^ (f.mb - n.log2) < 2 * 2 ^ f.mb ∧
    n.log2 ≤ f.mb := by
  have hk : n.log2 ≤ f.mb := by
    have := (Nat.log2_lt h0).2 h
    omega
  refine ⟨?_, ?_, ?_, hk⟩
  · unfold FT.roundMag
    simp only [hk, if_true]
  · have h1 := Nat.log2_self_le h0
    calc 2 ^ f.mb = 2 ^ n.log2 * 2 ^ (f.mb - n.log2) := by rw [← Nat.pow_add]; congr 1; omega
      _ ≤ _ := Nat.mul_le_mul_right _ h1
  · have h1 : n < 2 ^ (n.log2 + 1) := Nat.lt_log2_self
    calc n * 2 ^ (f.mb - n.log2) < 2 ^ (n.log2 + 1) * 2 ^ (f.mb - n.log2) :=
          Nat.mul_lt_mul_of_pos_right h1 (two_pow_pos _)
      _ = 2 * 2 ^ f.mb := by
          rw [← Nat.pow_add, ← Nat.pow_succ']; congr 1; omega

theorem ofInt_exact (f : FT) (hg : Spec.Good f) {x : Int} (h : x.natAbs < 2 ^ (f.mb + 1)) :
    Spec.Exact f (f.ofInt x) x := by
  obtain ⟨he, hm, hb⟩ := hg
  have hM := two_pow_pos f.mb
  have hbias : 2 * (f.bias + 1) = 2 ^ f.eb := by
    unfold FT.bias
    have := two_pow_pos (f.eb - 1)
    have h2 : 2 ^ f.eb = 2 * 2 ^ (f.eb - 1) := by
      rw [← Nat.pow_succ']; congr 1; omega
    omega
  unfold FT.ofInt
  by_cases h0 : x = 0
  · subst h0
    rw [if_pos rfl]
    constructor
    · unfold FT.isFinite FT.mag FT.infMag
      rw [Nat.zero_mod]
      simp only [decide_eq_true_eq]
      apply Nat.mul_pos _ hM
      omega
    · unfold FT.scaled FT.scaledMag FT.mag
      simp
  · rw [if_neg h0]
    have hn0 : x.natAbs ≠ 0 := by omega
    obtain ⟨hr, h1, h2, hk⟩ := roundMag_small f hn0 h
    -- the magnitude, split in exponent and mantissa
    have hk2 : x.natAbs.log2 + f.bias ≤ 2 ^ f.eb - 2 := by omega
    generalize hkk : x.natAbs.log2 = k at *
    generalize hmm : x.natAbs * 2 ^ (f.mb - k) = m at *
    have hmag : f.roundMag x.natAbs < f.infMag := by
      rw [hr]; unfold FT.infMag
      have : (k + f.bias + 1) * 2 ^ f.mb ≤ (2 ^ f.eb - 1) * 2 ^ f.mb :=
        Nat.mul_le_mul_right _ (by omega)
      rw [Nat.add_mul, Nat.one_mul] at this
      omega
    have hlt : f.infMag < 2 ^ (f.eb + f.mb) := by
      unfold FT.infMag
      rw [Nat.pow_add]
      exact Nat.mul_lt_mul_of_pos_right (by have := two_pow_pos f.eb; omega) hM
    have hmod : f.mag ((if x < 0 then 2 ^ (f.eb + f.mb) else 0) + f.roundMag x.natAbs) =
        f.roundMag x.natAbs := by
      unfold FT.mag
      split
      · rw [Nat.add_mod_left, Nat.mod_eq_of_lt (by omega)]
      · rw [Nat.zero_add, Nat.mod_eq_of_lt (by omega)]
    have hneg : f.neg ((if x < 0 then 2 ^ (f.eb + f.mb) else 0) + f.roundMag x.natAbs) =
        decide (x < 0) := by
      unfold FT.neg
      by_cases hx : x < 0
      · simp [hx]
      · simp only [hx, if_false, Nat.zero_add, decide_false, decide_eq_false_iff_not]; omega
    have hsc : f.scaledMag (f.roundMag x.natAbs) = x.natAbs * 2 ^ f.unit := by
      have hd : f.roundMag x.natAbs / 2 ^ f.mb = k + f.bias := by
        rw [hr, Nat.mul_comm, Nat.mul_add_div hM, Nat.div_eq_of_lt (by omega)]; rfl
      have hmd : f.roundMag x.natAbs % 2 ^ f.mb = m - 2 ^ f.mb := by
        rw [hr, Nat.mul_comm, Nat.mul_add_mod, Nat.mod_eq_of_lt (by omega)]
      unfold FT.scaledMag
      rw [hd, hmd, if_neg (by omega), Nat.add_sub_cancel' h1, ← hmm, Nat.mul_assoc, ← Nat.pow_add]
      congr 2
      unfold FT.unit
      omega
    constructor
    · unfold FT.isFinite
      rw [hmod]; simpa using hmag
    · unfold FT.scaled
      rw [hmod, hneg, hsc]
      generalize 2 ^ f.unit = u
      by_cases hx : x < 0
      · simp only [hx, decide_true, if_true]
        have hxa : x = -(x.natAbs : Int) := by omega
        conv => rhs; rw [hxa]
        rw [Int.natCast_mul, Int.neg_mul]
      · simp only [hx, decide_false]
        have hxa : x = (x.natAbs : Int) := by omega
        conv => rhs; rw [hxa]
        rw [Int.natCast_mul]; rfl

theorem trunc_exact (f : FT) {b : Nat} {x : Int} (h : Spec.Exact f b x) : f.trunc b = x := by
  unfold FT.trunc
  rw [h.2]
  apply Int.mul_tdiv_cancel
  have := two_pow_pos f.unit
  omega

end Riptide.Convert
