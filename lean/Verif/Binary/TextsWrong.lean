import Verif.Binary.TextsProps
/-! # Where the addition of texts goes wrong -/
namespace Riptide.Binary.Texts
open Spec

/-- **What follows a zero inside of a text is lost**: numpy sees `a\0b` and `c`, and the sum is `ac`. -/
theorem addTexts_zero_wrong : addTexts false (.arr 18 3 [1] [97, 0, 98]) (.arr 18 1 [1] [99]) = .new 18 4 [1] [[97, 99, 0, 0]] ∧ IsNumpyText (Slot [97, 0, 98] 3 0) [97, 0, 98] := by
  refine ⟨by decide, by decide, 0, by decide⟩

/-- **With an output only the first character of a text is added to bytes**: `x` and the text `bc` give `xb`, and the items have room for eight bytes more. -/
theorem addTexts_text_to_bytes_wrong : addTexts true (.arr 18 1 [1] [120]) (.text [98, 99]) = .new 18 9 [1] [[120, 98, 0, 0, 0, 0, 0, 0, 0]] := by decide

/-- In general: a text of characters from 1 to 255 adds its first character only. -/
theorem addTexts_text_to_bytes_first_wrong {s1 : Nat} {d1 m1 v : List Nat} {c : Nat} (hc : 0 < c ∧ c < 256) (h1 : s1 * length d1 ≤ m1.length) :
    ∃ l, addTexts true (.arr 18 s1 d1 m1) (.text (c :: v)) = .new 18 (s1 + 4 * (v.length + 1)) [length d1] l ∧ ∀ k < length d1, ∃ a r, l[k]? = some r ∧ IsText (Slot m1 s1 k) a ∧ IsNumpyText r (a ++ [c]) := by
  have hlen : ((c :: v).flatMap bytesOf).length = 4 * (v.length + 1) := by rw [flatMap_bytesOf_length]; rfl
  obtain ⟨l, hl, -, hk⟩ := concat_texts (mode := .second) (m1 := m1) (m2 := (c :: v).flatMap bytesOf) (w1 := s1) (w2 := 4 * (v.length + 1)) (n := length d1) (by simpa using h1) (by simp only [if_true, hlen]; exact Nat.le_refl _)
  refine ⟨l, ?_, ?_⟩
  · have e : scalar (.text (c :: v)) = some ((c :: v).flatMap bytesOf) := rfl
    simp only [addTexts, withScalar]
    rw [e]
    simp only [hlen, add, hl]
    rfl
  · intro k hkn
    obtain ⟨a, b, r, hr, ta, tb, -, he⟩ := hk k hkn
    have hs : Slot ((c :: v).flatMap bytesOf) (4 * (v.length + 1)) (if Mode.second = Mode.second then 0 else k) = [c] ++ 0 :: ([0, 0] ++ v.flatMap bytesOf) := by
      simp only [Slot, if_true, Nat.mul_zero, List.drop_zero, ← hlen, List.take_length]
      have e1 : c % 256 = c := Nat.mod_eq_of_lt hc.2
      have e2 : c / 256 = 0 := Nat.div_eq_of_lt hc.2
      have e3 : c / 65536 = 0 := Nat.div_eq_of_lt (by omega)
      have e4 : c / 16777216 = 0 := Nat.div_eq_of_lt (by omega)
      simp [bytesOf, e1, e2, e3, e4]
    have hb : b = [c] := text_unique tb (by
      rw [hs]
      exact ⟨by simp; omega, .inr ⟨_, rfl⟩⟩)
    subst hb
    refine ⟨a, r, hr, by simpa using ta, ?_, _, he⟩
    simp
    omega

/-- **With an output four bytes are one character when added to texts**: `x` and the bytes `abcd` give `x` and a character which is none. -/
theorem addTexts_bytes_to_text_wrong : addTexts true (.arr 19 4 [1] [120, 0, 0, 0]) (.bytes [97, 98, 99, 100]) = .new 19 8 [1] [[120, 1684234849]] ∧ addTexts true (.arr 19 4 [1] [120, 0, 0, 0]) (.bytes [97, 98, 99]) = .new 19 4 [1] [[120]] := by
  decide

/-- **The dimensions are lost**: the sum has one dimension. -/
theorem addTexts_dims_wrong {hasOut : Bool} {a b : In} {t s : Nat} {d : List Nat} {l : List (List Nat)} (h : addTexts hasOut a b = .new t s d l) : d.length = 1 := by
  have hadd : ∀ (ty : Nat) (mode : Mode) (m1 m2 : List Nat) (s1 s2 len : Nat), add ty mode m1 m2 s1 s2 len = .new t s d l → d.length = 1 := by
    intro ty mode m1 m2 s1 s2 len h
    unfold add at h
    split at h
    · split at h
      · injection h with _ _ h _
        rw [← h]
        rfl
      · cases h
    · split at h
      · split at h
        · injection h with _ _ h _
          rw [← h]
          rfl
        · cases h
      · cases h
  have hw : ∀ (ty : Nat) (v : In) (k : List Nat → Out), (∀ b, k b = .new t s d l → d.length = 1) → withScalar hasOut ty v k = .new t s d l → d.length = 1 := by
    intro ty v k hk h
    unfold withScalar at h
    split at h
    · cases h
    · split at h
      · exact hk _ h
      · cases h
  unfold addTexts at h
  split at h
  · split at h
    · exact hadd _ _ _ _ _ _ _ h
    · cases h
  · exact hw _ _ _ (fun b => hadd _ _ _ _ _ _ _) h
  · exact hw _ _ _ (fun b => hadd _ _ _ _ _ _ _) h
  · cases h

/-- An example, and arrays of dimensions which do not match are added. -/
theorem addTexts_shapes_wrong : addTexts false (.arr 18 1 [1, 2] [97, 98]) (.arr 18 1 [1, 2] [99, 100]) = .new 18 2 [2] [[97, 99], [98, 100]] ∧
    addTexts false (.arr 18 1 [1, 2] [97, 98]) (.arr 18 1 [2, 1] [99, 100]) = .new 18 2 [2] [[97, 99], [98, 100]] := by decide

/-- A single item is not added to several. -/
theorem addTexts_single_left : addTexts false (.arr 18 1 [2] [97, 98]) (.arr 18 1 [1] [99]) = .left := by decide

/-! ### The theorems speak of something -/

example : addTexts false (.arr 18 2 [2] [97, 0, 98, 99]) (.arr 18 1 [2] [100, 0]) = .new 18 3 [2] [[97, 100, 0], [98, 99, 0]] := by decide
example : addTexts false (.arr 18 2 [2] [97, 0, 98, 99]) (.bytes [100]) = .new 18 3 [2] [[97, 100, 0], [98, 99, 100]] := by decide
example : addTexts false (.bytes [100]) (.arr 18 2 [2] [97, 0, 98, 99]) = .new 18 3 [2] [[100, 97, 0], [100, 98, 99]] := by decide
example : addTexts false (.arr 19 4 [1] [120, 0, 0, 0]) (.text [98, 8364]) = .new 19 12 [1] [[120, 98, 8364]] := by decide
example : IsNumpyText (Slot [97, 0, 98, 99] 2 0) [97] := ⟨by decide, 1, by decide⟩
example : 2 * length [2] ≤ [97, 0, 98, 99].length := by decide

end Riptide.Binary.Texts
