import Verif.Unary.KernelProps
/-! Signs and complements. -/
namespace Riptide.Unary

/-- The sign of an integer. -/
theorem sign_int (x : Int) : signI x = x.sign := by
  unfold signI
  rcases Int.lt_trichotomy x 0 with h | h | h
  · rw [if_neg (by omega), if_pos h, Int.sign_eq_neg_one_of_neg h]
  · subst h; rfl
  · rw [if_pos h, Int.sign_eq_one_of_pos h]

/-- The sign of an invalid integer is not invalid. -/
theorem sign_invalid_wrong {t : IT} (ht : Signed t) : signI t.inv = -1 ∧ t.inv ≠ -1 := by
  rcases ht with rfl | rfl | rfl | rfl <;> decide

/-- The sign of a float or double: 1 or -1 for numbers above or below zero, +0 for both zeros, and NaN as it is. -/
theorem sign_float (f : FT) (b : Nat) :
    (f.isNan b = true → signF f b = b) ∧
    (f.isNan b = false → f.scaled b < 0 → signF f b = f.ofInt (-1)) ∧
    (f.isNan b = false → f.scaled b = 0 → signF f b = 0) ∧
    (f.isNan b = false → 0 < f.scaled b → signF f b = f.ofInt 1) := by
  have h0 : f.mag 0 = 0 := by unfold FT.mag; simp
  have hk : f.key 0 = 0 := by unfold FT.key; rw [h0]; split <;> rfl
  have hn0 : f.isNan 0 = false := by unfold FT.isNan; rw [h0]; simp
  have hsm : f.scaledMag (f.mag b) = 0 ↔ f.mag b = 0 := by
    unfold FT.scaledMag
    have hp : 0 < 2 ^ f.mb := Nat.pow_pos (by decide)
    split
    · exact Iff.rfl
    · rename_i hq
      constructor
      · intro h
        exfalso
        rcases Nat.mul_eq_zero.mp h with h | h
        · omega
        · have := Nat.pow_pos (n := f.mag b / 2 ^ f.mb - 1) (show 0 < 2 by decide); omega
      · intro h
        rw [h, Nat.zero_div] at hq
        exact absurd rfl hq
  have hlt : f.lt b 0 = (!f.isNan b && decide (f.key b < 0)) := by unfold FT.lt; rw [hn0, hk]; simp
  have hgt : f.lt 0 b = (!f.isNan b && decide (0 < f.key b)) := by unfold FT.lt; rw [hn0, hk]; simp
  have heq : f.eq b b = !f.isNan b := by unfold FT.eq; simp
  have hkey : (f.scaled b < 0 ↔ f.key b < 0) ∧ (0 < f.scaled b ↔ 0 < f.key b) := by
    unfold FT.scaled FT.key
    split <;> constructor <;> omega
  unfold signF
  rw [hlt, hgt, heq]
  refine ⟨fun h => ?_, fun h h1 => ?_, fun h h1 => ?_, fun h h1 => ?_⟩ <;> rw [h]
  · simp
  · have := hkey.1.mp h1
    rw [decide_eq_false (show ¬ 0 < f.key b by omega), decide_eq_true this]; rfl
  · rw [decide_eq_false (fun h => by have := hkey.2.mpr h; omega), decide_eq_false (fun h => by have := hkey.1.mpr h; omega)]; rfl
  · rw [decide_eq_true (hkey.2.mp h1)]; rfl

/-- The complement has the complementary bits. -/
theorem invert_bits (t : IT) (x : Int) : BitVec.ofInt t.bits (invertI t x) = ~~~ BitVec.ofInt t.bits x := by
  have h1 : BitVec.ofInt t.bits (invertI t x) = BitVec.ofInt t.bits (-x - 1) := by
    apply BitVec.eq_of_toInt_eq
    rw [BitVec.toInt_ofInt, BitVec.toInt_ofInt]
    unfold invertI IT.wrap
    rw [← Int.emod_bmod (x := ((-x - 1 - t.lo) % 2 ^ t.bits + t.lo)), ← Int.emod_bmod (x := -x - 1)]
    congr 1
    rw [show ((2 ^ t.bits : Nat) : Int) = (2 : Int) ^ t.bits by push_cast; rfl, Int.emod_add_emod]
    congr 1
    omega
  rw [h1, BitVec.not_eq_neg_add, BitVec.sub_eq_add_neg, show -x - 1 = -x + -1 by omega, BitVec.ofInt_add, BitVec.ofInt_neg, BitVec.ofInt_neg]
  rfl

example : BitVec.ofInt 8 (invertI .i8 100) = ~~~ BitVec.ofInt 8 100 := invert_bits .i8 100

/-- The complement of a boolean stored as 0 or 1 is its negation; of other bytes it is not. -/
theorem invert_bool_partial : invertBool 0 = 1 ∧ invertBool 1 = 0 := by decide
theorem invert_bool_wrong : invertBool 2 = 3 := by decide

end Riptide.Unary
