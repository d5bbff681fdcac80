import Verif.Stack.ColumnStrings
/-! # Where stacked columns go wrong, and examples -/
namespace Riptide.Stack
open Riptide.Sds Riptide.Convert

/-- Items whose types are not numbers get the type of the later file with the size that was written for another one: stacking `datetime64` (21) and
`timedelta64` (22) makes a column of items of 4 bytes, and 8 bytes of each file are written to it, over the end of its memory. -/
theorem overrun : ∃ l k, blocks l = [⟨21, 8, [1], true, true⟩, ⟨22, 8, [1], true, true⟩] ∧ king (blocks l) = some k ∧ k.item = 4 ∧
    ∀ m, m.length = rowSize k * totalRows 0 l → fillAll k (packets 0 0 l) m = none := by
  refine ⟨[⟨some ⟨21, 8, [1], true, true⟩, [1, 2, 3, 4, 5, 6, 7, 8], 1⟩, ⟨some ⟨22, 8, [1], true, true⟩, [1, 2, 3, 4, 5, 6, 7, 8], 1⟩],
    ⟨22, 4, [1], true, true⟩, rfl, by decide, rfl, ?_⟩
  intro m hm
  have hm' : m.length = 8 := hm
  match m, hm' with
  | [a, b, c, d, e, f, g, h], _ => rfl

/-- Complex numbers and bytes of type `void` are stacked as `void`: the complex numbers are written over the end. -/
theorem overrun_void : ∃ a b k : Block, a.dtype = 15 ∧ a.item = 16 ∧ b.dtype = 20 ∧ b.item = 1 ∧ king [a, b] = some k ∧ k.item = 1 ∧
    ∀ m, m.length = 2 → fill k ⟨0, 1, ⟨some a, List.replicate 16 1, 1⟩⟩ m = none := by
  refine ⟨⟨15, 16, [1], true, true⟩, ⟨20, 1, [1], true, true⟩, ⟨20, 1, [1], true, true⟩, rfl, rfl, rfl, rfl, by decide, rfl, ?_⟩
  intro m hm
  match m, hm with
  | [a, b], _ => rfl

/-- A column without rows in a file which has rows is given the rows, but nothing is ever written to them. -/
theorem rows_never_written : ∃ l k, king (blocks l) = some k ∧ totalRows 0 l = 3 ∧ (∀ p ∈ l, p.block ≠ none) ∧
    ∀ m, m.length = rowSize k * totalRows 0 l → ∃ m', fillAll k (packets 0 0 l) m = some m' ∧ ∀ i, 4 ≤ i → m'[i]? = m[i]? := by
  refine ⟨[⟨some ⟨5, 4, [1], true, true⟩, [1, 2, 3, 4], 1⟩, ⟨some ⟨5, 4, [0], true, true⟩, [], 2⟩], ⟨5, 4, [1], true, true⟩, by decide, by decide,
    by decide, ?_⟩
  intro m hm
  have hm' : m.length = 12 := hm
  match m, hm' with
  | [a, b, c, d, e, f, g, h, i, j, k, l], _ =>
    refine ⟨[1, 2, 3, 4, e, f, g, h, i, j, k, l], rfl, ?_⟩
    intro i hi
    match i, hi with
    | i + 4, _ => rfl

/-- The same for a column without dimensions. -/
theorem scalar_never_written {k b : Block} {data m : List Nat} {len off gap : Nat} (hb : b.dims = []) (hc : (compat false k b).2.ok = true) :
    (Part.mk (some b) data len).rows = len ∧ fill k ⟨off, gap, ⟨some b, data, len⟩⟩ m = some m := by
  have h0 : (Part.mk (some b) data len).own = 0 := by
    unfold Part.own
    dsimp only
    rw [hb]
    rfl
  refine ⟨by unfold Part.rows; rw [if_pos h0], ?_⟩
  unfold fill
  dsimp only
  rw [hc, h0]
  rfl

example := scalar_never_written (k := ⟨5, 4, [], true, true⟩) (b := ⟨5, 4, [], true, true⟩) (data := [1, 2, 3, 4]) (m := [0, 0, 0, 0]) (len := 1)
  (off := 0) (gap := 1) rfl (by decide)

/-- The same for strings of width 0 in a wider column. -/
theorem empty_strings_not_written : ∃ l k, king (blocks l) = some k ∧ k.item = 2 ∧ blocks l = [⟨18, 2, [1], true, true⟩, ⟨18, 0, [1], true, true⟩] ∧
    ∀ m, m.length = rowSize k * totalRows 0 l → ∃ m', fillAll k (packets 0 0 l) m = some m' ∧ ∀ i, 2 ≤ i → m'[i]? = m[i]? := by
  refine ⟨[⟨some ⟨18, 2, [1], true, true⟩, [97, 98], 1⟩, ⟨some ⟨18, 0, [1], true, true⟩, [], 1⟩], ⟨18, 2, [1], true, true⟩, by decide, rfl, rfl, ?_⟩
  intro m hm
  have hm' : m.length = 4 := hm
  match m, hm' with
  | [a, b, c, d], _ =>
    refine ⟨[97, 98, c, d], rfl, ?_⟩
    intro i hi
    match i, hi with
    | i + 2, _ => rfl

/-- The counter of the loops for gaps has 32 bits. -/
theorem gap_too_long {k : Block} (hk : k.item = 1 ∨ k.item = 2 ∨ k.item = 4 ∨ k.item = 8) {rows : Nat} (h : 2 ^ 31 ≤ cols k * rows) :
    gapFill k rows = none := by
  unfold gapFill
  dsimp only
  rw [if_pos hk, if_neg]
  have : rowSize k * rows / k.item = cols k * rows := by
    unfold rowSize
    rw [Nat.mul_assoc]
    exact Nat.mul_div_cancel_left _ (by omega)
  omega

/-- The gap of a column of `long double` is zeros, which are numbers, not NaN; that of `complex64` is the bits of the least 64-bit integer. -/
theorem gap_not_invalid : gapFill ⟨13, 16, [3], true, true⟩ 2 = some (List.replicate 32 0) ∧
    gapFill ⟨14, 8, [3], true, true⟩ 1 = some [0, 0, 0, 0, 0, 0, 0, 128] := by decide

/-! ### Examples -/

/-- Three files: `int16`, without the column, `int32`. -/
def threeParts : List Part :=
  [⟨some ⟨3, 2, [2], true, true⟩, [255, 255, 0, 128], 2⟩, ⟨none, [], 1⟩, ⟨some ⟨5, 4, [1], true, true⟩, [1, 2, 0, 0], 1⟩]

theorem threeParts_ok : Stackable threeParts [] 1 where
  present := by decide
  shape := ⟨by decide, by decide, by decide⟩
  corder := .inl (by decide)
  bytes := by
    intro p hp b hb
    simp only [threeParts, List.mem_cons, List.not_mem_nil, or_false] at hp
    rcases hp with rfl | rfl | rfl <;> cases hb <;> decide
  empty := by decide

/-- The hypotheses of `numbers_stacked_partial` hold for three files, and its result is what it should be. -/
example :=
  numbers_stacked_partial (extra := 1) threeParts_ok
    (by intro b hb; simp [threeParts, blocks] at hb; rcases hb with rfl | rfl <;> exact ⟨⟨by decide, by decide⟩, by decide⟩)
    (by
      intro p hp b hb h0
      simp only [threeParts, List.mem_cons, List.not_mem_nil, or_false] at hp
      rcases hp with rfl | rfl | rfl <;> cases hb <;> cases h0)
    (by decide)

-- -1 stays -1, the invalid `int16` becomes the invalid `int32`, and so does the row of the file without the column.
example : fillAll ⟨5, 4, [2], true, true⟩ (packets 1 0 threeParts) (List.replicate 20 7) =
    some [255, 255, 255, 255, 0, 0, 0, 128, 0, 0, 0, 128, 1, 2, 0, 0, 7, 7, 7, 7] := by decide
example : fillAll ⟨5, 4, [2], true, true⟩ (packets 1 0 threeParts).reverse (List.replicate 20 7) =
    some [255, 255, 255, 255, 0, 0, 0, 128, 0, 0, 0, 128, 1, 2, 0, 0, 7, 7, 7, 7] := by decide

/-- Three files: strings of one byte, without the column, strings of two. -/
def stringParts : List Part :=
  [⟨some ⟨18, 1, [2], true, true⟩, [97, 98], 2⟩, ⟨some ⟨18, 2, [1], true, true⟩, [99, 100], 1⟩, ⟨none, [], 1⟩]

theorem stringParts_ok : Stackable stringParts [] 1 where
  present := by decide
  shape := ⟨by decide, by decide, by decide⟩
  corder := .inl (by decide)
  bytes := by
    intro p hp b hb
    simp only [stringParts, List.mem_cons, List.not_mem_nil, or_false] at hp
    rcases hp with rfl | rfl | rfl <;> cases hb <;> decide
  empty := by decide

/-- And those of `strings_stacked_partial`. -/
example :=
  strings_stacked_partial (extra := 1) stringParts_ok
    (by intro b hb; simp [stringParts, blocks] at hb; rcases hb with rfl | rfl <;> exact ⟨.inl rfl, by decide⟩) (by decide)

example : fillAll ⟨18, 2, [2], true, true⟩ (packets 1 0 stringParts) (List.replicate 10 7) = some [97, 0, 98, 0, 99, 100, 0, 0, 0, 0] := by decide

end Riptide.Stack
