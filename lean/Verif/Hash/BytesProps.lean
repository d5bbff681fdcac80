import Verif.Hash.Bytes
/-! # Byte comparison and bit fields (C55) -/
namespace Riptide.Hash

theorem leWord_inj : ∀ {a b : List UInt8}, a.length = b.length → leWord a = leWord b → a = b
  | [], [], _, _ => rfl
  | x :: a, y :: b, hl, h => by
    simp only [leWord] at h
    have hx : x.toNat < 256 := x.toNat_lt
    have hy : y.toNat < 256 := y.toNat_lt
    have h1 : x.toNat = y.toNat := by omega
    have h2 : leWord a = leWord b := by omega
    rw [leWord_inj (by simpa using hl) h2, UInt8.toNat_inj.mp h1]

theorem diffBytes_iff : ∀ {a b : List UInt8}, a.length = b.length → (diffBytes a b = false ↔ a = b)
  | [], [], _ => by simp [diffBytes]
  | x :: a, y :: b, hl => by
    have ih := diffBytes_iff (a := a) (b := b) (by simpa using hl)
    unfold diffBytes
    by_cases h : x = y
    · subst h; simpa using ih
    · simp [h]

theorem take_drop_eq (n : Nat) {a b : List UInt8} : a = b ↔ a.take n = b.take n ∧ a.drop n = b.drop n := by
  constructor
  · rintro rfl; exact ⟨rfl, rfl⟩
  · rintro ⟨h1, h2⟩; rw [← List.take_append_drop n a, ← List.take_append_drop n b, h1, h2]

theorem word_step (n : Nat) {a b : List UInt8} (hl : a.length = b.length) (rest : Bool)
    (hr : rest = false ↔ a.drop n = b.drop n) :
    (if leWord (a.take n) != leWord (b.take n) then true else rest) = false ↔ a = b := by
  by_cases h : leWord (a.take n) = leWord (b.take n)
  · have ht := leWord_inj (by simp [hl]) h
    simp only [h, bne_self_eq_false, Bool.false_eq_true, if_false]
    rw [hr]
    exact ⟨fun h => (take_drop_eq n).mpr ⟨ht, h⟩, fun h => by rw [h]⟩
  · simp only [bne_iff_ne, ne_eq, h, not_false_eq_true, if_true, Bool.true_eq_false, false_iff]
    intro e; exact h (by rw [e])

/-- **C55**: the word-wise comparison finds a difference exactly when the bytes differ, for every width. -/
theorem memcmp_iff (a b : List UInt8) (hl : a.length = b.length) : memcmpNew a b = false ↔ a = b := by
  induction a, b using memcmpNew.induct with
  | case1 a b h hw =>
    unfold memcmpNew
    rw [dif_pos h, if_pos hw]
    simp only [Bool.true_eq_false, false_iff]
    rintro rfl
    simp at hw
  | case2 a b h hw ih =>
    unfold memcmpNew
    rw [dif_pos h]
    exact word_step 8 hl _ (ih (by simp [hl]))
  | case3 a b h =>
    unfold memcmpNew
    rw [dif_neg h]
    unfold diff4
    by_cases h4 : 4 ≤ a.length
    · rw [if_pos h4]; exact word_step 4 hl _ (diffBytes_iff (by simp [hl]))
    · rw [if_neg h4]; exact diffBytes_iff hl

example : memcmpNew [1,2,3,4,5,6,7,8,9,10,11,12,13] [1,2,3,4,5,6,7,8,9,10,11,12,14] = true := by decide +kernel
example : memcmpNew [1,2,3,4,5,6,7,8,9,10,11,12,13] [1,2,3,4,5,6,7,8,9,10,11,12,13] = false := by decide +kernel

/-- **C55**: setting a bit makes that slot taken and changes no other; clearing frees that slot only. -/
theorem bit_field_is_flag_array (words : List Nat) (p q : Nat) (hp : p < 64 * words.length) :
    isBitSet (setBit words p) q = (if q = p then some true else isBitSet words q) ∧
    isBitSet (clearBit words p) q = (if q = p then some false else isBitSet words q) := by
  have hidx : p / 64 < words.length := by omega
  have hbit : ∀ i, (2 ^ 64 - 1 : Nat).testBit i = decide (i < 64) := fun i => Nat.testBit_two_pow_sub_one 64 i
  constructor
  · unfold isBitSet setBit
    rw [List.getElem?_modify]
    by_cases hw : p / 64 = q / 64
    · rw [List.getElem?_eq_getElem (hw ▸ hidx : q / 64 < words.length)]
      simp only [hw, if_true, Option.map_some, Option.map_eq_map, Nat.testBit_or, Nat.testBit_two_pow]
      by_cases hq : q = p
      · subst hq; simp
      · have : p % 64 ≠ q % 64 := by omega
        simp [hq, this]
    · rw [if_neg (by rintro rfl; exact hw rfl)]
      simp [hw]
  · unfold isBitSet clearBit
    rw [List.getElem?_modify]
    by_cases hw : p / 64 = q / 64
    · rw [List.getElem?_eq_getElem (hw ▸ hidx : q / 64 < words.length)]
      simp only [hw, if_true, Option.map_some, Option.map_eq_map, Nat.testBit_and, Nat.testBit_xor, hbit, Nat.testBit_two_pow]
      have h64 : q % 64 < 64 := by omega
      by_cases hq : q = p
      · subst hq; simp [h64]
      · have : p % 64 ≠ q % 64 := by omega
        simp [hq, this, h64]
    · rw [if_neg (by rintro rfl; exact hw rfl)]
      simp [hw]

example : isBitSet (setBit [0, 0] 63) 63 = some true ∧ isBitSet (setBit [0, 0] 64) 63 = some false := by decide

end Riptide.Hash
