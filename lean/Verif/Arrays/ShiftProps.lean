import Verif.Arrays.Model
import Verif.Arrays.Spec
/-! Shifting in place, C68. -/
namespace Riptide.Arrays
open Spec

theorem memmove_get {α : Type} (l : List α) (dst src n : Nat) (h1 : dst + n ≤ l.length) (h2 : src + n ≤ l.length) :
    ∃ l', memmove l dst src n = some l' ∧ l'.length = l.length ∧
      ∀ (i : Nat), l'[i]? = if dst ≤ i ∧ i < dst + n then l[i - dst + src]? else l[i]? := by
  refine ⟨_, if_pos ⟨h1, h2⟩, by simp; omega, ?_⟩
  intro i
  have hl : (List.take dst l).length = dst := by simp; omega
  have hm : (List.take n (List.drop src l)).length = n := by simp; omega
  by_cases ha : i < dst
  · rw [if_neg (by omega), List.append_assoc, List.getElem?_append_left (by omega), List.getElem?_take, if_pos ha]
  · by_cases hb : i < dst + n
    · rw [if_pos ⟨by omega, hb⟩, List.append_assoc, List.getElem?_append_right (by omega), List.getElem?_append_left (by omega),
        List.getElem?_take, if_pos (by omega), List.getElem?_drop]
      congr 1; omega
    · rw [if_neg (by omega), List.getElem?_append_right (by simp; omega), List.getElem?_drop]
      congr 1
      simp only [List.length_append, hl, hm]
      omega

/-- C68 for a contiguous array of one dimension: every row with a source gets it, the others stay. -/
theorem shift_rows {α : Type} (l : List α) (k : Int) : ∃ l', shift1 l k = some l' ∧ Shifted l k l' := by
  unfold shift1
  dsimp only
  by_cases hk : k < 0
  · rw [if_pos hk]
    by_cases hd : (l.length : Int) + k > 0
    · rw [if_pos hd, if_pos hk]
      obtain ⟨l', h1, h2, h3⟩ := memmove_get l (-k).toNat 0 ((l.length : Int) + k).toNat (by omega) (by omega)
      refine ⟨l', h1, h2, ?_⟩
      intro i hi
      rw [h3 i]
      by_cases hc : 0 ≤ (i : Int) + k
      · rw [if_pos (by omega), if_pos (by omega)]; congr 1; omega
      · rw [if_neg (by omega), if_neg (by omega)]
    · rw [if_neg hd]
      refine ⟨l, rfl, rfl, ?_⟩
      intro i hi
      rw [if_neg (by omega)]
  · rw [if_neg hk]
    by_cases hd : (l.length : Int) - k > 0
    · rw [if_pos hd, if_neg hk]
      obtain ⟨l', h1, h2, h3⟩ := memmove_get l 0 k.toNat ((l.length : Int) - k).toNat (by omega) (by omega)
      refine ⟨l', h1, h2, ?_⟩
      intro i hi
      rw [h3 i]
      by_cases hc : (i : Int) + k < l.length
      · rw [if_pos (by omega), if_pos (by omega)]; congr 1; omega
      · rw [if_neg (by omega), if_neg (by omega)]
    · rw [if_neg hd]
      refine ⟨l, rfl, rfl, ?_⟩
      intro i hi
      rw [if_neg (by omega)]

theorem shift_unique {α : Type} {l a b : List α} {k : Int} (ha : Shifted l k a) (hb : Shifted l k b) : a = b := by
  apply List.ext_getElem?
  intro i
  by_cases hi : i < l.length
  · rw [ha.2 i hi, hb.2 i hi]
  · rw [List.getElem?_eq_none (by rw [ha.1]; omega), List.getElem?_eq_none (by rw [hb.1]; omega)]

theorem memmove_append {α : Type} (pre x post : List α) (dst src n : Nat) (h1 : dst + n ≤ x.length) (h2 : src + n ≤ x.length) :
    memmove (pre ++ x ++ post) (pre.length + dst) (pre.length + src) n =
      (memmove x dst src n).map fun y => pre ++ y ++ post := by
  unfold memmove
  rw [if_pos (by simp; omega), if_pos ⟨h1, h2⟩, Option.map_some]
  congr 1
  rw [List.append_assoc pre x post, List.take_length_add_append, List.drop_length_add_append, List.take_append_of_le_length (by omega),
    List.drop_append_of_le_length (by omega), List.take_append_of_le_length (by simp; omega), Nat.add_assoc,
    List.drop_length_add_append, List.drop_append_of_le_length (by omega)]
  simp [List.append_assoc]

theorem shiftCols_append {α : Type} (rows : Nat) (k : Int) (cols : List (List α)) (hc : ∀ c ∈ cols, c.length = rows) (pre : List α) :
    ∃ cols', shiftCols rows k cols.length pre.length (pre ++ cols.flatten) = some (pre ++ List.flatten cols') ∧
      cols'.length = cols.length ∧ ∀ (j : Nat) (c c' : List α), cols[j]? = some c → cols'[j]? = some c' → Shifted c k c' := by
  induction cols generalizing pre with
  | nil => exact ⟨[], rfl, rfl, by simp⟩
  | cons c cols ih =>
    have hlen : c.length = rows := hc c (by simp)
    rw [List.length_cons, shiftCols]
    obtain ⟨c', hs, hsh⟩ := shift_rows c k
    by_cases hn : (if k < 0 then (rows : Int) + k else (rows : Int) - k) > 0
    · rw [if_pos hn]
      have hstep : (if k < 0 then memmove (pre ++ (c :: cols).flatten) (pre.length + (-k).toNat) pre.length
            (if k < 0 then (rows : Int) + k else (rows : Int) - k).toNat
          else memmove (pre ++ (c :: cols).flatten) pre.length (pre.length + k.toNat)
            (if k < 0 then (rows : Int) + k else (rows : Int) - k).toNat) = some ((pre ++ c') ++ cols.flatten) := by
        unfold shift1 at hs
        dsimp only at hs
        rw [hlen, if_pos hn] at hs
        rw [List.flatten_cons, ← List.append_assoc]
        by_cases hk : k < 0
        · rw [if_pos hk] at hs hn
          rw [if_pos hk] at hs
          rw [if_pos hk, if_pos hk]
          have := memmove_append pre c cols.flatten (-k).toNat 0 ((rows : Int) + k).toNat (by omega) (by omega)
          rw [Nat.add_zero] at this
          rw [this, hs]; rfl
        · rw [if_neg hk] at hs hn
          rw [if_neg hk] at hs
          rw [if_neg hk, if_neg hk]
          have := memmove_append pre c cols.flatten 0 k.toNat ((rows : Int) - k).toNat (by omega) (by omega)
          rw [Nat.add_zero] at this
          rw [this, hs]; rfl
      rw [hstep, Option.bind_some]
      obtain ⟨cols', h1, h2, h3⟩ := ih (fun x hx => hc x (by simp [hx])) (pre ++ c')
      have hpl : (pre ++ c').length = pre.length + rows := by rw [List.length_append, hsh.1, hlen]
      rw [hpl] at h1
      refine ⟨c' :: cols', ?_, by simp [h2], ?_⟩
      · rw [h1, List.flatten_cons, List.append_assoc]
      · intro j x y hx hy
        cases j with
        | zero =>
          have e1 : c = x := by simpa using hx
          have e2 : c' = y := by simpa using hy
          subst e1 e2; exact hsh
        | succ j => exact h3 j x y (by simpa using hx) (by simpa using hy)
    · rw [if_neg hn]
      refine ⟨c :: cols, rfl, rfl, ?_⟩
      intro j x y hx hy
      rw [hx] at hy
      have : x = y := by simpa using hy
      subst this
      have hxl := hc x (List.mem_of_getElem? hx)
      refine ⟨rfl, ?_⟩
      intro i hi
      rw [if_neg]
      split at hn <;> omega

/-- C68 for a Fortran array: every column is shifted by rows. -/
theorem shift_columns {α : Type} (rows : Nat) (k : Int) (cols : List (List α)) (hc : ∀ c ∈ cols, c.length = rows) :
    ∃ cols', shiftCols rows k cols.length 0 cols.flatten = some (List.flatten cols') ∧
      cols'.length = cols.length ∧ ∀ (j : Nat) (c c' : List α), cols[j]? = some c → cols'[j]? = some c' → Shifted c k c' := by
  have := shiftCols_append rows k cols hc []
  simpa using this

/-- C68 is false of the code: the rows `[1, 2], [3, 4]` shifted by one become `[2, 3], [4, 4]` when stored by rows, and
`[3, 4], [3, 4]` when stored by columns. -/
theorem shift_depends_on_layout :
    shift1 [1, 2, 3, 4] 1 = some [2, 3, 4, 4] ∧ shiftCols 2 1 2 0 [1, 3, 2, 4] = some [3, 3, 4, 4] := by decide

/-- C68 is false of the code: an array that is not contiguous is not shifted at all. -/
theorem shift_view_unchanged {α : Type} (mem : List α) (stride n : Nat) (k : Int) (hs : stride ≠ 1) (hn : n > 1) :
    shiftView mem stride n k = some mem := by
  unfold shiftView
  rw [if_neg (by omega)]

theorem shift_view_wrong : shiftView [1, 2, 3, 4] 2 2 1 = some [1, 2, 3, 4] ∧ viewOf [1, 2, 3, 4] 2 2 = [some 1, some 3] ∧
    shift1 [1, 3] 1 = some [3, 3] := by decide

example : shift1 [1, 2, 3, 4, 5] 2 = some [3, 4, 5, 4, 5] ∧ shift1 [1, 2, 3, 4, 5] (-2) = some [1, 2, 1, 2, 3] ∧
    shift1 [1, 2] 7 = some [1, 2] := by decide
example : shiftCols 3 (-1) 2 0 [1, 2, 3, 4, 5, 6] = some [1, 1, 2, 4, 4, 5] := by decide

/-- A shift by nothing changes nothing. -/
theorem shift_zero {α : Type} (l : List α) : shift1 l 0 = some l := by
  obtain ⟨l', h1, h2⟩ := shift_rows l 0
  rw [h1]
  congr 1
  refine shift_unique h2 ⟨rfl, ?_⟩
  intro i hi
  rw [if_pos (by omega)]
  congr 1

end Riptide.Arrays
