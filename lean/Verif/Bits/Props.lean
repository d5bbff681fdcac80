import Verif.Bits.Model
import Verif.Bits.Spec
import Verif.Common.Lists
/-! # Theorems about bit counting -/
namespace Riptide.Bits

theorem ones_add (a b n : Nat) : ones (a + b) n = ones a n + ones b (n >>> a) := by
  unfold ones
  have : List.range (a + b) = List.range a ++ (List.range b).map (a + ·) := by
    rw [List.range_add]
  rw [this, List.countP_append, List.countP_map]
  congr 1
  apply List.countP_congr
  intro i _
  simp [Nat.testBit_shiftRight]

theorem nibble_ones : ∀ k, k < 16 → nibble k = some (ones 4 k) := by decide

theorem ones_mask (n : Nat) : ones 4 (n &&& 0xf) = ones 4 n := by
  unfold ones
  apply List.countP_congr
  intro i hi
  have hi' : i < 4 := by simpa using hi
  have : (0xf : Nat) = 2 ^ 4 - 1 := rfl
  rw [this, Nat.and_two_pow_sub_one_eq_mod, Nat.testBit_mod_two_pow]
  simp [hi']

theorem nibble_mask (n : Nat) : nibble (n &&& 0xf) = some (ones 4 n) := by
  rw [nibble_ones _ (Nat.lt_of_le_of_lt Nat.and_le_right (by decide)), ones_mask]

theorem popcnt_ones (w n : Nat) (h : n < 2 ^ w) : popcnt n = ones w n := by
  induction w generalizing n with
  | zero => have : n = 0 := by omega
            subst this; simp [popcnt, ones]
  | succ w ih =>
    rw [Nat.add_comm w 1, ones_add]
    rw [popcnt]
    split
    · rename_i h0; subst h0
      have h1 : ∀ v, ones v 0 = 0 := by intro v; simp [ones]
      simp [h1]
    · rw [ih (n / 2) (by rw [Nat.pow_succ] at h; omega), Nat.shiftRight_eq_div_pow]
      congr 1
      simp only [ones]
      have : List.range 1 = [0] := rfl
      rw [this]
      simp only [List.countP_cons, List.countP_nil, Nat.testBit_zero]
      rcases Nat.mod_two_eq_zero_or_one n with h | h <;> simp [h]

/-- C41: for integers of 1, 2, 4 and 8 bytes the count is the number of one bits. -/
theorem count_eq_ones (size : Nat) (hs : size = 1 ∨ size = 2 ∨ size = 4 ∨ size = 8) (n : Nat)
    (hn : n < 2 ^ (8 * size)) : count (.bytes size) n = some (ones (8 * size) n) := by
  rcases hs with rfl | rfl | rfl | rfl
  · have h1 : nibble (n >>> 4) = some (ones 4 (n >>> 4)) :=
      nibble_ones _ (by rw [Nat.shiftRight_eq_div_pow]; omega)
    simp only [count, h1, nibble_mask, Option.bind_eq_bind, Option.bind_some, Nat.mul_one]
    rw [show 8 = 4 + 4 from rfl, ones_add 4 4 n, Nat.add_comm]
  · have h1 : nibble (n >>> 12) = some (ones 4 (n >>> 12)) :=
      nibble_ones _ (by rw [Nat.shiftRight_eq_div_pow]; omega)
    simp only [count, h1, nibble_mask, Option.bind_eq_bind, Option.bind_some]
    rw [show 8 * 2 = 4 + (4 + (4 + 4)) from rfl, ones_add 4 _ n, ones_add 4 _ (n >>> 4),
      ones_add 4 _ (n >>> 4 >>> 4), ← Nat.shiftRight_add, ← Nat.shiftRight_add]
    simp only [Nat.reduceAdd]
    congr 1; omega
  · simp only [count]; rw [popcnt_ones 32 n hn]
  · simp only [count]; rw [popcnt_ones 64 n hn]

/-- C41 for booleans. -/
theorem count_bool (n : Nat) : count .bool n = some (if n = 0 then 0 else 1) := rfl

/-- C41 for contiguous arrays. -/
theorem bit_count_partial (size : Nat) (hs : size = 1 ∨ size = 2 ∨ size = 4 ∨ size = 8)
    (mem elem : Nat → Nat) (len : Nat) (hm : ∀ i, i < len → mem (i * size) = elem i)
    (he : ∀ i, i < len → elem i < 2 ^ (8 * size)) :
    bitCount (.bytes size) mem len = some ((List.range len).map fun i => ones (8 * size) (elem i)) := by
  unfold bitCount
  apply mapM_some
  intro i hi
  have hi' : i < len := by simpa using hi
  show count (.bytes size) (mem (i * size)) = _
  rw [hm i hi', count_eq_ones size hs _ (he i hi')]

example : bitCount (.bytes 2) (fun a => a * 1000 + 7) 3 = some [3, 9, 9] := by decide +kernel

/-- Strides are ignored: for an array that takes every second byte of `1, 3, 7, 15` (elements 1 and 7)
the counts are those of 1 and 3. -/
theorem strided_array_miscounted :
    let mem : Nat → Nat := fun a => [1, 3, 7, 15].getD a 0
    let elem : Nat → Nat := fun i => mem (i * 2)
    bitCount (.bytes 1) mem 2 = some [1, 2] ∧ (List.range 2).map (fun i => ones 8 (elem i)) = [1, 3] := by
  decide

end Riptide.Bits
